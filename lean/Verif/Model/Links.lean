import Verif.Model.Routes

/-!
# The links and forms of the pages (templates/*.html)

The id of the index is handed to the templates as it was in the URL.  Only the links and the forms with their buttons are
modelled here; `Model/Pages` has the whole text.
-/

namespace Hyperreal.Web

variable {σ : Type}

/-- What is written on a link. -/
inductive Label where
  | home | indexDetails | modelOverview | exportClusters
  | clusterOverview | previousCluster | nextCluster | pivotByCluster
  | feature (f : Nat)
  | intersectFeature (c : Int) | intersectCluster (c : Int) | seeAll (c : Int) | pivot (c : Int)
  | anIndex (i : Nat)
  deriving DecidableEq

/-- The title of every page (base.html:227). -/
def baseLinks : List (Label × String) := [(.home, "/")]

/-- The links of a cluster page (cluster.html:8-9, 16-21, 119 with macros.html:3).  In a template the number 0 counts as
false. -/
def clusterLinks (i : String) (p : ClusterPage σ) : List (Label × String) :=
  baseLinks ++
  [(.indexDetails, "/index/" ++ i ++ "/details"), (.modelOverview, "/index/" ++ i),
   (.clusterOverview, "/index/" ++ i ++ "/cluster/" ++ toString p.cluster)] ++
  (if p.prev ≠ 0 ∨ p.next ≠ 0 then
    [(.previousCluster, "/index/" ++ i ++ "/cluster/" ++ toString p.prev),
     (.nextCluster, "/index/" ++ i ++ "/cluster/" ++ toString p.next)] else []) ++
  [(.pivotByCluster, "/index/" ++ i ++ "/?cluster_id=" ++ toString p.cluster)] ++
  p.features.ids.map (fun f =>
    (.feature f, "/index/" ++ i ++ "/" ++ ("cluster/" ++ toString p.cluster ++ "/") ++ "?feature_id=" ++ toString f))

/-- The clusters listed on an index page with the features listed for them. -/
def entries : Listing σ → List (Int × List Nat)
  | .ranked rs => rs.map (fun x => (x.1, x.2.2.map (·.1)))
  | .plain rs => rs.map (fun x => (x.1, x.2.2.map (·.fid)))

/-- The links at a cluster of the index page (macros.html:3, 72-81). -/
def entryLinks (i : String) (feature : Option Nat) (cluster : Option Int) (x : Int × List Nat) : List (Label × String) :=
  x.2.map (fun f => (.feature f, "/index/" ++ i ++ "/" ++ "" ++ "?feature_id=" ++ toString f)) ++
  [match feature, cluster with
   | some f, _ => (.intersectFeature x.1, "/index/" ++ i ++ "/cluster/" ++ toString x.1 ++ "/?feature_id=" ++ toString f)
   | none, some c => (.intersectCluster x.1, "/index/" ++ i ++ "/cluster/" ++ toString x.1 ++ "/?filter_cluster_id=" ++ toString c)
   | none, none => (.seeAll x.1, "/index/" ++ i ++ "/cluster/" ++ toString x.1),
   (.pivot x.1, "/index/" ++ i ++ "/?cluster_id=" ++ toString x.1)]

/-- The links of an index page (index.html:8-10, 42-46). -/
def indexLinks (i : String) (p : IndexPage σ) : List (Label × String) :=
  baseLinks ++
  [(.indexDetails, "/index/" ++ i ++ "/details"), (.modelOverview, "/index/" ++ i),
   (.exportClusters, "/index/" ++ i ++ "/export_clusters")] ++
  (entries p.clusters).flatMap (entryLinks i p.feature p.cluster)

/-- The links of the details (details.html:7). -/
def detailsLinks (i : String) : List (Label × String) := baseLinks ++ [(.modelOverview, "/index/" ++ i)]

/-- The links of the list of indexes (index_listing.html:8-10) with the one index there is (server.py:606-614). -/
def listingLinks : List (Label × String) := baseLinks ++ [(.anIndex 0, "/index/" ++ toString 0)]

/-! ## Forms -/

/-- What a user does on a cluster page: a button, with what was selected and typed (numbers as text). -/
inductive ClusterPress where
  | unpin | pin | delete | createVisible
  | removeSelected (fids : List Nat) | createSelected (fids : List Nat)
  | split (target iterations minFeatures : String)

/-- The request a cluster page sends (cluster.html:27-100); `none` if the page has no such button or no such feature to
select. -/
def clusterPress (i : String) (p : ClusterPage σ) : ClusterPress → Option Request
  | .unpin =>
    if p.pinned then some ⟨true, "/index/" ++ i ++ "/cluster/pin",
      [("return_to", "cluster"), ("cluster_id", toString p.cluster), ("pinned", "0")]⟩ else none
  | .pin =>
    if p.pinned then none else some ⟨true, "/index/" ++ i ++ "/cluster/pin",
      [("return_to", "cluster"), ("cluster_id", toString p.cluster), ("pinned", "1")]⟩
  | .delete =>
    if p.pinned then none else some ⟨true, "/index/" ++ i ++ "/cluster/delete",
      [("return_cluster_id", toString p.next), ("cluster_id", toString p.cluster)]⟩
  | .createVisible =>
    if p.pinned ∨ p.features.ids = [] then none else some ⟨true, "/index/" ++ i ++ "/cluster/create",
      p.features.ids.map (fun f => ("feature_id", toString f))⟩
  | .removeSelected fids =>
    if p.pinned ∨ ¬ fids.Sublist p.features.ids then none else some ⟨true, "/index/" ++ i ++ "/feature/remove_from_model",
      ("cluster_id", toString p.cluster) :: fids.map (fun f => ("feature_id", toString f))⟩
  | .createSelected fids =>
    if p.pinned ∨ ¬ fids.Sublist p.features.ids then none else some ⟨true, "/index/" ++ i ++ "/cluster/create",
      ("cluster_id", toString p.cluster) :: fids.map (fun f => ("feature_id", toString f))⟩
  | .split target iterations minFeatures =>
    if p.pinned then none else some ⟨true, "/index/" ++ i ++ "/cluster/refine",
      [("cluster_id", toString p.cluster), ("return_to", "cluster"), ("target_clusters", target), ("iterations", iterations),
       ("minimum_cluster_features", minFeatures)]⟩

/-- What a user does on an index page, with the clusters that are ticked and the number of clusters typed, if any. -/
inductive IndexPress where
  | refineSelected (cids : List Int) (target : String)
  | deleteSelected (cids : List Int) (target : String)
  | mergeSelected (cids : List Int) (target : String)

/-- The request an index page sends (index.html:18-26, macros.html:84); `none` if there is no such cluster to tick. -/
def indexPress (i : String) (p : IndexPage σ) (b : IndexPress) : Option Request :=
  let send (action : String) (cids : List Int) (target : String) : Option Request :=
    if cids.Sublist ((entries p.clusters).map (·.1)) then
      some ⟨true, "/index/" ++ i ++ "/cluster/" ++ action,
        [("return_to", "model"), ("target_clusters", target)] ++ cids.map (fun c => ("cluster_id", toString c))⟩
    else none
  match b with
  | .refineSelected cids target => send "refine" cids target
  | .deleteSelected cids target => send "delete" cids target
  | .mergeSelected cids target => send "merge" cids target

/-- What a user does on the details page. -/
inductive DetailsPress where
  | recreate (fields : List String) (iterations minDocs clusters minFeatures : String)
  | refine (iterations target minFeatures : String)

/-- The request the details page sends (details.html:41-94); `none` if there is no such field to select. -/
def detailsPress (i : String) (summary : List FieldRow) : DetailsPress → Option Request
  | .recreate fields iterations minDocs clusters minFeatures =>
    if fields.Sublist (summary.map (·.field)) then
      some ⟨true, "/index/" ++ i ++ "/recreate_model", fields.map (fun f => ("include_fields", f)) ++
        [("iterations", iterations), ("min_docs", minDocs), ("clusters", clusters), ("minimum_cluster_features", minFeatures)]⟩
    else none
  | .refine iterations target minFeatures =>
    some ⟨true, "/index/" ++ i ++ "/refine_model",
      [("iterations", iterations), ("target_clusters", target), ("minimum_cluster_features", minFeatures)]⟩

/-- The search form (macros.html:91-108): on a cluster page it names the cluster, unless its id is 0, which counts as false
(macros.html:103). -/
def searchForm (i : String) (cluster : Option Int) (field value : String) : Request :=
  ⟨false, "/index/" ++ i ++ "/search", [("field", field), ("value", value)] ++
    match cluster with
    | some c => if c ≠ 0 then [("cluster_id", toString c)] else []
    | none => []⟩

end Hyperreal.Web
