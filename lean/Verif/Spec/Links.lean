import Verif.Model.Links
import Verif.Spec.Server

/-! # Specification vocabulary for requests, links and forms -/

namespace Hyperreal.Spec
open Web

/-- A number that was written as text is read as this number. -/
def ReadsNumbers (int : String → Option Int) : Prop := ∀ n : Int, int (toString n) = some n

/-- Nothing in the text has a meaning in a URL. -/
def PathPart (s : String) : Prop := s ≠ "" ∧ ∀ c ∈ s.toList, c ≠ '/' ∧ c ≠ '?' ∧ c ≠ '&' ∧ c ≠ '='

instance (s : String) : Decidable (PathPart s) := by unfold PathPart; infer_instance

/-- A page of the web interface. -/
inductive Goal where
  | listing
  | details
  | overview (feature : Option Nat) (cluster : Option Int)
  | cluster (c : Int) (feature : Option Nat) (filter : Option Int)
  | file

variable {σ : Type} [LinearOrder σ]

/-- What is shown: the views (`clusterPage`, `indexPage`) with the default numbers of documents and features.  Without a model
the details take the place of the overview. -/
def Goal.page (w : Web σ) : Goal → Answer σ
  | .listing => .listing
  | .details => .details w.db.fieldSummary (clusterIds w.db).length
  | .overview f c =>
    match indexPage w f c 5 40 none with
    | .error e => .failed e
    | .ok none => .details w.db.fieldSummary (clusterIds w.db).length
    | .ok (some p) => .index p
  | .cluster c f g =>
    match clusterPage w c f g 30 none with
    | .error e => .failed e
    | .ok p => .cluster p
  | .file => .file (Csv.clustersFile w.visitC w.visitT w.db 0)

/-- All clusters the page is about are there. -/
def Goal.Exists (db : DB) : Goal → Prop
  | .overview _ c => ∀ x, c = some x → hasCluster db x
  | .cluster c _ g => hasCluster db c ∧ ∀ x, g = some x → hasCluster db x
  | _ => True

/-- The page a link of a cluster page promises. -/
def onClusterPage (p : ClusterPage σ) : Label → Option Goal
  | .home => some .listing
  | .indexDetails => some .details
  | .modelOverview => some (.overview none none)
  | .clusterOverview => some (.cluster p.cluster none none)
  | .previousCluster => some (.cluster p.prev none none)
  | .nextCluster => some (.cluster p.next none none)
  | .pivotByCluster => some (.overview none (some p.cluster))
  | .feature f => some (.cluster p.cluster (some f) none)
  | _ => none

/-- The page a link of an index page promises. -/
def onIndexPage (p : IndexPage σ) : Label → Option Goal
  | .home => some .listing
  | .indexDetails => some .details
  | .modelOverview => some (.overview none none)
  | .exportClusters => some .file
  | .feature f => some (.overview (some f) none)
  | .intersectFeature c => some (.cluster c p.feature none)
  | .intersectCluster c => some (.cluster c none p.cluster)
  | .seeAll c => some (.cluster c none none)
  | .pivot c => some (.overview none (some c))
  | _ => none

/-- The page a link of the details or of the list of indexes promises. -/
def onOtherPages : Label → Option Goal
  | .home => some .listing
  | .modelOverview => some (.overview none none)
  | .anIndex 0 => some (.overview none none)
  | _ => none

/-- What is seen after an action: the page its response names, on the content it left, or the error. -/
def landing (w : Web σ) (x : DB × Response) : Answer σ :=
  match x.2 with
  | .cluster c => Goal.page { w with db := x.1 } (.cluster c none none)
  | .index c => Goal.page { w with db := x.1 } (.overview none c)
  | .failed e => .failed e

/-- What the buttons of a cluster page say; numbers are typed in decimal. -/
inductive ClusterMeans (p : ClusterPage σ) : ClusterPress → Action → Prop
  | unpin : ClusterMeans p .unpin (.pin [p.cluster] false true)
  | pin : ClusterMeans p .pin (.pin [p.cluster] true true)
  | delete : ClusterMeans p .delete (.delete [p.cluster] (some p.next))
  | createVisible : ClusterMeans p .createVisible (.create p.features.ids)
  | removeSelected (fids) : ClusterMeans p (.removeSelected fids) (.removeFeatures fids (some p.cluster))
  | createSelected (fids) : ClusterMeans p (.createSelected fids) (.create fids)
  | split (target n : Int) (m : Nat) :
    ClusterMeans p (.split (toString target) (toString n) (toString m)) (.refine [p.cluster] (some target) n m true)
  | splitAny (n : Int) (m : Nat) : ClusterMeans p (.split "" (toString n) (toString m)) (.refine [p.cluster] none n m true)

/-- What the buttons of an index page say. -/
inductive IndexMeans : IndexPress → Action → Prop
  | refine (cids) (target : Int) : IndexMeans (.refineSelected cids (toString target)) (.refine cids (some target) 10 1 false)
  | refineAny (cids) : IndexMeans (.refineSelected cids "") (.refine cids none 10 1 false)
  | delete (cids t) : IndexMeans (.deleteSelected cids t) (.delete cids none)
  | merge (cids t) : IndexMeans (.mergeSelected cids t) (.merge cids)

/-- What the buttons of the details say. -/
inductive DetailsMeans : DetailsPress → Action → Prop
  | recreate (fields) (n : Int) (d : Nat) (k : Int) (m : Nat) :
    DetailsMeans (.recreate fields (toString n) (toString d) (toString k) (toString m)) (.recreateModel fields d k n m)
  | refine (n target : Int) (m : Nat) :
    DetailsMeans (.refine (toString n) (toString target) (toString m)) (.refineModel (some target) n m)
  | refineAny (n : Int) (m : Nat) : DetailsMeans (.refine (toString n) "" (toString m)) (.refineModel none n m)

end Hyperreal.Spec
