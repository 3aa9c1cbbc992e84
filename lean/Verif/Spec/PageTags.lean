import Verif.Spec.Pages
import Verif.Spec.Written

/-!
# Specification: what the pages consist of

The tags of each page in order, with what is shown in them.
-/

namespace Hyperreal.Spec.Page
open Web Pages

variable {σ : Type}

/-! ## Parts -/

/-- The beginning of a page. -/
def headTags : List Pattern := [
  ⟨"!DOCTYPE", [("html", "")], ""⟩, ⟨"html", [("lang", "en")], ""⟩, ⟨"head", [], ""⟩,
  ⟨"meta", [("name", "viewport"), ("content", "width=device-width, initial-scale=1")], ""⟩, ⟨"title", [], "{{ title }}"⟩,
  ⟨"/title", [], ""⟩]

/-- Up to the navigation, with the title of the site that leads home. -/
def bodyTags : List Pattern := [
  ⟨"style", [("type", "text/css")], ""⟩, ⟨"/style", [], ""⟩, ⟨"/head", [], ""⟩,
  ⟨"body", [("class", "with-sidebar"), ("up-main", "")], ""⟩, ⟨"header", [], ""⟩, ⟨"h1", [], ""⟩,
  ⟨"a", [("href", "/")], "Feature Clustering"⟩, ⟨"/a", [], ""⟩, ⟨"/h1", [], ""⟩, ⟨"nav", [], ""⟩,
  ⟨"ul", [("class", "nav-links")], ""⟩]

/-- After the navigation. -/
def mainTags : List Pattern := [
  ⟨"/ul", [], ""⟩, ⟨"/nav", [], ""⟩, ⟨"/header", [], ""⟩, ⟨"main", [], ""⟩]

/-- The end of a page. -/
def footTags : List Pattern := [
  ⟨"/main", [], ""⟩, ⟨"/body", [], ""⟩, ⟨"/html", [], ""⟩]

/-- A feature: its link, field, value and score. -/
def featureTags (highlight cluster : Bool) : List Pattern := [
  ⟨"li", [], ""⟩, ⟨"div", [], ""⟩,
  ⟨"a", [("href", if cluster then "/index/{{ index_id }}/cluster/{{ cluster_id }}/?feature_id={{ feature_id }}"
    else "/index/{{ index_id }}/?feature_id={{ feature_id }}")], ""⟩,
  ⟨"div", [("class", "feature")], ""⟩, ⟨"span", [("class", "field")], "{{ field }}"⟩, ⟨"/span", [], ""⟩,
  ⟨"div", [("class", if highlight then "value highlight" else "value")], "{{ value }}"⟩, ⟨"/div", [], ""⟩,
  ⟨"span", [("class", "score")], "{{ score }}"⟩, ⟨"/span", [], ""⟩, ⟨"/div", [], ""⟩, ⟨"/a", [], ""⟩, ⟨"/div", [], ""⟩,
  ⟨"/li", [], ""⟩]

/-- A cluster: its number, and its score if there is one. -/
def clusterHeadTags (highlight scored : Bool) : List Pattern := [
  ⟨"div", [("class", "feature-cluster")], ""⟩,
  ⟨"div", [("class", if highlight then "cluster-header highlight" else "cluster-header ")],
    if scored then "Cluster {{ cluster_id }} - {{ cluster_score }}" else "Cluster {{ cluster_id }} "⟩,
  ⟨"/div", [], ""⟩, ⟨"ul", [("class", "compact-cluster")], ""⟩]

/-- The links at a cluster of the overview, and the box to tick. -/
def clusterFootTags (feature cluster : Bool) : List Pattern := [
  ⟨"/ul", [], ""⟩, ⟨"div", [("class", "cluster-footer")], ""⟩,
  ⟨"a", [("href",
    if feature then "/index/{{ index_id }}/cluster/{{ cluster_id }}/?feature_id={{ highlight_feature_id }}"
    else if cluster then "/index/{{ index_id }}/cluster/{{ cluster_id }}/?filter_cluster_id={{ highlight_cluster_id }}"
    else "/index/{{ index_id }}/cluster/{{ cluster_id }}")],
    if feature then "Intersect selected feature" else if cluster then "Intersect selected cluster" else "See  all in cluster"⟩,
  ⟨"/a", [], ""⟩, ⟨"a", [("href", "/index/{{ index_id }}/?cluster_id={{ cluster_id }}")], "Pivot"⟩, ⟨"/a", [], ""⟩,
  ⟨"label", [], "Select for editing:"⟩,
  ⟨"input", [("type", "checkbox"), ("form", "cluster_edit"), ("name", "cluster_id"), ("value", "{{ cluster_id }}")], ""⟩,
  ⟨"/label", [], ""⟩, ⟨"/div", [], ""⟩, ⟨"/div", [], ""⟩]

/-- The search form before the fields. -/
def searchTags : List Pattern := [
  ⟨"div", [("class", "feature-search")], ""⟩, ⟨"form", [("method", "get"), ("action", "/index/{{ index_id }}/search")], ""⟩,
  ⟨"label", [("for", "target_field")], "Search field:"⟩, ⟨"/label", [], ""⟩,
  ⟨"select", [("name", "field"), ("id", "target_field")], ""⟩]

/-- A field to choose. -/
def optionTags : List Pattern := [
  ⟨"option", [("value", "{{ field }}")], "{{ field }}"⟩, ⟨"/option", [], ""⟩]

/-- The search form after the fields; on a cluster page it names the cluster. -/
def searchEndTags (cluster : Bool) : List Pattern := [
  ⟨"/select", [], ""⟩, ⟨"label", [("for", "site-search")], "for"⟩, ⟨"/label", [], ""⟩,
  ⟨"input", [("type", "search"), ("id", "target_value"), ("name", "value")], ""⟩, ⟨"button", [("type", "submit")], "Search"⟩,
  ⟨"/button", [], ""⟩] ++
  (if cluster then [⟨"input", [("type", "hidden"), ("name", "cluster_id"), ("value", "{{ cluster_id }}")], ""⟩] else []) ++
  [⟨"/form", [], ""⟩, ⟨"/div", [], ""⟩]

/-- The navigation of a cluster page. -/
def clusterNavTags : List Pattern := [
  ⟨"li", [], ""⟩, ⟨"a", [("href", "/index/{{ index_id }}/details")], "Index Details"⟩, ⟨"/a", [], ""⟩, ⟨"/li", [], ""⟩,
  ⟨"li", [], ""⟩, ⟨"a", [("href", "/index/{{ index_id }}")], "Model Overview"⟩, ⟨"/a", [], ""⟩, ⟨"/li", [], ""⟩]

/-- The links of a cluster page; to other clusters if there are others. -/
def clusterMenuTags (others : Bool) : List Pattern := [
  ⟨"ul", [("class", "nav-links")], ""⟩, ⟨"li", [], ""⟩,
  ⟨"a", [("href", "/index/{{ index_id }}/cluster/{{ cluster_id }}")], "Cluster Overview"⟩, ⟨"/a", [], ""⟩, ⟨"/li", [], ""⟩] ++
  (if others then [
  ⟨"li", [], ""⟩, ⟨"a", [("href", "/index/{{ index_id }}/cluster/{{ prev_cluster_id }}")], "Previous Cluster"⟩,
  ⟨"/li", [], ""⟩, ⟨"li", [], ""⟩, ⟨"a", [("href", "/index/{{ index_id }}/cluster/{{ next_cluster_id }}")], "Next Cluster"⟩,
  ⟨"/li", [], ""⟩] else []) ++ [
  ⟨"li", [], ""⟩, ⟨"a", [("href", "/index/{{ index_id }}/?cluster_id={{ cluster_id }}")], "Pivot By Cluster"⟩, ⟨"/a", [], ""⟩,
  ⟨"/li", [], ""⟩, ⟨"/ul", [], ""⟩]

/-- Where the forms begin. -/
def editTags : List Pattern := [
  ⟨"details", [], ""⟩, ⟨"summary", [], "Edit this cluster"⟩, ⟨"/summary", [], ""⟩]

/-- The form to pin, or to unpin. -/
def pinTags (pinned : Bool) : List Pattern := [
  ⟨"form", [("method", "post"), ("action", "/index/{{ index_id }}/cluster/pin")], ""⟩, ⟨"fieldset", [], ""⟩,
  ⟨"input", [("type", "hidden"), ("name", "return_to"), ("value", "cluster")], ""⟩,
  ⟨"input", [("type", "hidden"), ("name", "cluster_id"), ("value", "{{ cluster_id }}")], ""⟩,
  ⟨"input", [("type", "hidden"), ("name", "pinned"), ("value", if pinned then "0" else "1")], ""⟩,
  ⟨"button", [("class", "inline-button"), ("type", "submit")], if pinned then "Unpin Cluster" else "Pin Cluster"⟩,
  ⟨"/button", [], ""⟩, ⟨"/fieldset", [], ""⟩, ⟨"/form", [], ""⟩]

/-- The form to remove features, before the features. -/
def removeTags : List Pattern := [
  ⟨"form", [("method", "post"), ("action", "/index/{{ index_id }}/feature/remove_from_model")], ""⟩, ⟨"fieldset", [], ""⟩,
  ⟨"label", [("for", "feature_selection")], "Choose features:"⟩, ⟨"/label", [], ""⟩,
  ⟨"input", [("type", "hidden"), ("name", "cluster_id"), ("value", "{{ cluster_id }}")], ""⟩,
  ⟨"select", [("name", "feature_id"), ("id", "feature_selection"), ("multiple", "")], ""⟩]

/-- A feature to choose. -/
def chooseTags : List Pattern := [
  ⟨"option", [("value", "{{ feature_id }}")], "{{ field }}: {{ value }}"⟩, ⟨"/option", [], ""⟩]

/-- The rest of that form, and the form to delete the cluster. -/
def deleteTags : List Pattern := [
  ⟨"/select", [], ""⟩, ⟨"/fieldset", [], ""⟩, ⟨"button", [("type", "submit")], "Delete Selected Features"⟩,
  ⟨"/button", [], ""⟩,
  ⟨"button", [("type", "submit"), ("formaction", "/index/{{ index_id }}/cluster/create"), ("method", "post")],
    "Create From Selected Features"⟩,
  ⟨"/button", [], ""⟩, ⟨"/form", [], ""⟩,
  ⟨"form", [("method", "post"), ("action", "/index/{{ index_id }}/cluster/delete")], ""⟩, ⟨"fieldset", [], ""⟩,
  ⟨"input", [("type", "hidden"), ("name", "return_cluster_id"), ("value", "{{ next_cluster_id }}")], ""⟩,
  ⟨"input", [("type", "hidden"), ("name", "cluster_id"), ("value", "{{ cluster_id }}")], ""⟩,
  ⟨"button", [("class", "inline-button"), ("type", "submit")], "Delete and go to next cluster"⟩, ⟨"/button", [], ""⟩,
  ⟨"/fieldset", [], ""⟩, ⟨"/form", [], ""⟩]

/-- The form to make a cluster of the features that are shown. -/
def visibleTags : List Pattern := [
  ⟨"form", [("method", "post"), ("action", "/index/{{ index_id }}/cluster/create")], ""⟩, ⟨"fieldset", [], ""⟩]

/-- A feature in that form. -/
def visibleFeatureTags : List Pattern := [
  ⟨"input", [("type", "hidden"), ("name", "feature_id"), ("value", "{{ feature_id }}")], ""⟩]

/-- The end of that form. -/
def visibleEndTags : List Pattern := [
  ⟨"button", [("type", "submit")], "Create New Cluster From All Visible Features"⟩, ⟨"/button", [], ""⟩, ⟨"/fieldset", [], ""⟩,
  ⟨"/form", [], ""⟩]

/-- The form to split the cluster. -/
def splitTags : List Pattern := [
  ⟨"form", [("method", "post"), ("action", "/index/{{ index_id }}/cluster/refine")], ""⟩, ⟨"fieldset", [], ""⟩,
  ⟨"input", [("type", "hidden"), ("name", "cluster_id"), ("value", "{{ cluster_id }}")], ""⟩,
  ⟨"input", [("type", "hidden"), ("name", "return_to"), ("value", "cluster")], ""⟩, ⟨"ul", [], ""⟩, ⟨"li", [], ""⟩,
  ⟨"label", [("for", "target_clusters")], "Split into how many clusters:"⟩, ⟨"/label", [], ""⟩,
  ⟨"input", [("id", "target_clusters"), ("name", "target_clusters"), ("type", "number"), ("value", "2")], ""⟩, ⟨"/li", [], ""⟩,
  ⟨"li", [], ""⟩, ⟨"label", [("for", "iterations")], "Number of iterations of refinement after splitting:"⟩,
  ⟨"/label", [], ""⟩, ⟨"input", [("id", "iterations"), ("name", "iterations"), ("type", "number"), ("value", "10")], ""⟩,
  ⟨"/li", [], ""⟩, ⟨"li", [], ""⟩,
  ⟨"label", [("for", "minimum_cluster_features")], "Minimum number of features in split clusters:"⟩, ⟨"/label", [], ""⟩,
  ⟨"input", [("id", "minimum_cluster_features"), ("name", "minimum_cluster_features"), ("type", "number"), ("value", "1")], ""⟩,
  ⟨"/li", [], ""⟩, ⟨"/ul", [], ""⟩, ⟨"/fieldset", [], ""⟩, ⟨"button", [("type", "submit")], "Split Cluster"⟩,
  ⟨"/button", [], ""⟩, ⟨"/form", [], ""⟩]

/-- The navigation of an overview. -/
def indexNavTags : List Pattern := [
  ⟨"li", [], ""⟩, ⟨"a", [("href", "/index/{{ index_id }}/details")], "Index Details"⟩, ⟨"/a", [], ""⟩, ⟨"/li", [], ""⟩,
  ⟨"li", [], ""⟩, ⟨"a", [("href", "/index/{{ index_id }}")], "Model Overview"⟩, ⟨"/a", [], ""⟩, ⟨"/li", [], ""⟩,
  ⟨"li", [], ""⟩, ⟨"a", [("href", "/index/{{ index_id }}/export_clusters")], "Export Clusters"⟩, ⟨"/a", [], ""⟩, ⟨"/li", [], ""⟩]

/-- The form to edit clusters. -/
def indexEditTags : List Pattern := [
  ⟨"details", [], ""⟩, ⟨"summary", [], "Edit Selected Clusters"⟩, ⟨"/summary", [], ""⟩,
  ⟨"form", [("method", "post"), ("id", "cluster_edit"), ("action", "/index/{{ index_id }}/cluster/delete")], ""⟩,
  ⟨"input", [("type", "hidden"), ("name", "return_to"), ("value", "model")], ""⟩,
  ⟨"label", [("for", "target_clusters")], "Refine selection into how many clusters:"⟩, ⟨"/label", [], ""⟩,
  ⟨"input", [("id", "target_clusters"), ("name", "target_clusters"), ("type", "number")], ""⟩,
  ⟨"button", [("type", "submit"), ("formaction", "/index/{{ index_id }}/cluster/refine"), ("method", "post")],
    "Refine Selected Clusters"⟩,
  ⟨"/button", [], ""⟩, ⟨"br", [], ""⟩, ⟨"button", [("type", "submit")], "Delete Clusters 🗑️"⟩, ⟨"/button", [], ""⟩,
  ⟨"button", [("type", "submit"), ("formaction", "/index/{{ index_id }}/cluster/merge"), ("method", "post")], "Merge Clusters"⟩,
  ⟨"/button", [], ""⟩, ⟨"/form", [], ""⟩, ⟨"/details", [], ""⟩, ⟨"ul", [("class", "cluster-list")], ""⟩]

/-- The table of fields. -/
def summaryTags : List Pattern := [
  ⟨"section", [], ""⟩, ⟨"h2", [], "Summary of Indexed Fields"⟩, ⟨"/h2", [], ""⟩, ⟨"table", [], ""⟩, ⟨"thead", [], ""⟩,
  ⟨"tr", [], ""⟩, ⟨"th", [], "Field"⟩, ⟨"/th", [], ""⟩, ⟨"th", [], "Cardinality"⟩, ⟨"/th", [], ""⟩,
  ⟨"th", [], "Minimum Value"⟩, ⟨"/th", [], ""⟩, ⟨"th", [], "Maximum Value"⟩, ⟨"/th", [], ""⟩, ⟨"th", [], "Positions Recorded"⟩,
  ⟨"/th", [], ""⟩, ⟨"/tr", [], ""⟩, ⟨"/thead", [], ""⟩, ⟨"tbody", [], ""⟩]

/-- A row of that table. -/
def fieldTags : List Pattern := [
  ⟨"tr", [], ""⟩, ⟨"td", [], "{{ field }}"⟩, ⟨"/td", [], ""⟩, ⟨"td", [], "{{ granularity }}"⟩, ⟨"/td", [], ""⟩,
  ⟨"td", [], "{{ min_value }}"⟩, ⟨"/td", [], ""⟩, ⟨"td", [], "{{ max_value }}"⟩, ⟨"/td", [], ""⟩,
  ⟨"td", [], "{{ position_count }}"⟩, ⟨"/td", [], ""⟩, ⟨"/tr", [], ""⟩]

/-- The form for a new model, before the fields. -/
def recreateTags : List Pattern := [
  ⟨"/tbody", [], ""⟩, ⟨"caption", [], "Fields and value ranges present in this index."⟩, ⟨"/caption", [], ""⟩,
  ⟨"/table", [], ""⟩, ⟨"/section", [], ""⟩, ⟨"details", [], ""⟩, ⟨"summary", [], "Recreate Model"⟩, ⟨"/summary", [], ""⟩,
  ⟨"form", [("method", "post"), ("action", "/index/{{ index_id }}/recreate_model")], ""⟩, ⟨"fieldset", [], ""⟩, ⟨"ul", [], ""⟩,
  ⟨"li", [], ""⟩, ⟨"label", [("for", "field_selection")], "Choose fields to include in the model:"⟩, ⟨"/label", [], ""⟩,
  ⟨"select", [("name", "include_fields"), ("id", "field_selection"), ("multiple", "")], ""⟩]

/-- The rest of that form, and the form to refine the model. -/
def detailsEndTags : List Pattern := [
  ⟨"/select", [], ""⟩, ⟨"/li", [], ""⟩, ⟨"li", [], ""⟩, ⟨"label", [("for", "iterations")], "Number of iterations to run:"⟩,
  ⟨"/label", [], ""⟩, ⟨"input", [("id", "iterations"), ("name", "iterations"), ("type", "number"), ("value", "10")], ""⟩,
  ⟨"/li", [], ""⟩, ⟨"li", [], ""⟩,
  ⟨"label", [("for", "min-docs")], "Minimum number of documents a feature needs to retrieve to be included in the model:"⟩,
  ⟨"/label", [], ""⟩, ⟨"input", [("id", "min-docs"), ("name", "min_docs"), ("type", "number"), ("value", "10")], ""⟩,
  ⟨"/li", [], ""⟩, ⟨"li", [], ""⟩, ⟨"label", [("for", "clusters")], "Number of clusters in the model:"⟩, ⟨"/label", [], ""⟩,
  ⟨"input", [("id", "clusters"), ("name", "clusters"), ("type", "number"), ("value", "64")], ""⟩, ⟨"/li", [], ""⟩,
  ⟨"li", [], ""⟩, ⟨"label", [("for", "minimum_cluster_features")], "Minimum number of features in split clusters:"⟩,
  ⟨"/label", [], ""⟩,
  ⟨"input", [("id", "minimum_cluster_features"), ("name", "minimum_cluster_features"), ("type", "number"), ("value", "1")], ""⟩,
  ⟨"/li", [], ""⟩, ⟨"/ul", [], ""⟩, ⟨"/fieldset", [], ""⟩, ⟨"button", [("type", "submit")], "Recreate Model"⟩,
  ⟨"/button", [], ""⟩, ⟨"/form", [], ""⟩, ⟨"/details", [], ""⟩, ⟨"details", [], ""⟩, ⟨"summary", [], "Refine Existing Model"⟩,
  ⟨"/summary", [], ""⟩, ⟨"form", [("method", "post"), ("action", "/index/{{ index_id }}/refine_model")], ""⟩,
  ⟨"fieldset", [], ""⟩, ⟨"ul", [], ""⟩, ⟨"li", [], ""⟩, ⟨"label", [("for", "iterations")], "Number of iterations to run:"⟩,
  ⟨"/label", [], ""⟩, ⟨"input", [("id", "iterations"), ("name", "iterations"), ("type", "number"), ("value", "10")], ""⟩,
  ⟨"/li", [], ""⟩, ⟨"li", [], ""⟩,
  ⟨"label", [("for", "target_clusters")], "Target number of clusters (current model contains {{ current_clusters }}):"⟩,
  ⟨"/label", [], ""⟩,
  ⟨"input", [("id", "target_clusters"), ("name", "target_clusters"), ("type", "number"), ("value", "{{ current_clusters }}")], ""⟩,
  ⟨"/li", [], ""⟩, ⟨"li", [], ""⟩,
  ⟨"label", [("for", "minimum_cluster_features")], "Minimum number of features in split clusters:"⟩, ⟨"/label", [], ""⟩,
  ⟨"input", [("id", "minimum_cluster_features"), ("name", "minimum_cluster_features"), ("type", "number"), ("value", "1")], ""⟩,
  ⟨"/li", [], ""⟩, ⟨"/ul", [], ""⟩, ⟨"/fieldset", [], ""⟩, ⟨"button", [("type", "submit")], "Refine Existing Model"⟩,
  ⟨"/button", [], ""⟩, ⟨"/form", [], ""⟩, ⟨"/details", [], ""⟩]

/-- The list of indexes. -/
def listedIndexTags : List Pattern := [
  ⟨"ul", [("class", "compact-cluster")], ""⟩, ⟨"li", [], ""⟩,
  ⟨"a", [("href", "/index/{{ index_id }}")], "{{ index_path }}, {{ corpus_class.CORPUS_TYPE }}"⟩, ⟨"/a", [], ""⟩,
  ⟨"/li", [], ""⟩, ⟨"/ul", [], ""⟩]

/-- The number of search results. -/
def resultTags (some : Bool) : List Pattern := [
  ⟨"li", [], ""⟩,
  ⟨"div", [("class", "cluster-header")],
    if some then "Sample of {{ total_docs }} documents" else "All {{ total_docs }} matching documents."⟩,
  ⟨"/div", [], ""⟩]

/-! ## What is shown -/

/-- A feature with its score, as a row of a list. -/
def rankedEntry (fmt : Format σ) (r : Nat × String × Val × σ) : Entry :=
  { fid := r.1, field := r.2.1, value := written r.2.2.1, score := fmt.score r.2.2.2 }

/-- A feature with its number of documents, as a row of a list. -/
def countedEntry (fmt : Format σ) (r : Listed) : Entry :=
  { fid := r.fid, field := r.field, value := written r.value, score := fmt.count r.docsCount }

/-- The rows of a cluster page. -/
def pageEntries (fmt : Format σ) : Hyperreal.Shown σ → List Entry
  | .ranked rs => rs.map (rankedEntry fmt)
  | .plain rs => rs.map (countedEntry fmt)

/-- The clusters of an overview, with their scores or numbers of documents, and their rows. -/
def overviewEntries (fmt : Format σ) : Listing σ → List (Int × String × List Entry)
  | .ranked rs => rs.map (fun x => (x.1, fmt.score x.2.1, x.2.2.map (rankedEntry fmt)))
  | .plain rs => rs.map (fun x => (x.1, fmt.count x.2.1, x.2.2.map (countedEntry fmt)))

/-- The items of a field of a passage; a missing one is shown as `None`. -/
def passageValues : RowCell → List String
  | .values vs => vs.map (fun v => match v with | some x => written x | none => "None")
  | .passages ts => ts

/-- How many results there are. -/
def found : Results → Nat
  | .nothing => 0
  | .concordance rs => rs.length
  | .passages rs => rs.length
  | .documents rs => rs.length

/-! ## Pages -/

/-- Tags with values. -/
def tags (env : String → String) (ps : List Pattern) : List Node := ps.map (Pattern.node env)

/-- A page with its title, navigation and content. -/
def pageTags (title : String) (nav content : List Node) : List Node :=
  ⟨"", [], ""⟩ :: (tags (fun _ => title) headTags ++ tags (fun _ => "") bodyTags ++ nav ++ tags (fun _ => "") mainTags ++ content ++
    tags (fun _ => "") footTags)

/-- A feature in a list. -/
def entryTags (i : String) (c : Int) (cluster : Bool) (highlight : Option Nat) (e : Entry) : List Node :=
  tags (fun n =>
    if n = "index_id" then i else if n = "cluster_id" then toString c else if n = "feature_id" then toString e.fid
    else if n = "field" then e.field else if n = "value" then e.value else e.score)
    (featureTags (decide (some e.fid = highlight)) cluster)

/-- The features of a cluster page. -/
def clusterBoxTags (i : String) (c : Int) (es : List Entry) (feature : Option Nat) : List Node :=
  tags (fun _ => toString c) (clusterHeadTags false false) ++ es.flatMap (entryTags i c true feature) ++
    [⟨"/ul", [], ""⟩, ⟨"/div", [], ""⟩]

/-- A cluster of the overview. -/
def listedTags (i : String) (feature : Option Nat) (cluster : Option Int) (x : Int × String × List Entry) : List Node :=
  tags (fun n => if n = "cluster_id" then toString x.1 else x.2.1) (clusterHeadTags (decide (some x.1 = cluster)) true) ++
    x.2.2.flatMap (entryTags i x.1 false feature) ++
    tags (fun n =>
      if n = "index_id" then i else if n = "cluster_id" then toString x.1
      else if n = "highlight_feature_id" then toString (feature.getD 0) else toString (cluster.getD 0))
      (clusterFootTags feature.isSome cluster.isSome)

/-- The search form: the fields to choose, and the cluster unless its number is 0. -/
def searchFormTags (i : String) (fields : List String) (cluster : Option Int) : List Node :=
  tags (fun _ => i) searchTags ++ fields.flatMap (fun f => tags (fun _ => f) optionTags) ++
    tags (fun _ => toString (cluster.getD 0)) (searchEndTags (decide (cluster.getD 0 ≠ 0)))

/-- A document in the list of results: text is shown as it is; what a corpus gives as markup keeps its tags. -/
def docTags : Html.Doc → List Node
  | .text s => [⟨"li", [], s⟩, ⟨"/li", [], ""⟩]
  | .markup s => ⟨"li", [], ((nodes s).headD ⟨"", [], ""⟩).text⟩ :: (nodes s).tail ++ [⟨"/li", [], ""⟩]

/-- A passage: its fields and their values. -/
def passageTags (row : Dict String RowCell) : List Node :=
  [⟨"li", [], ""⟩, ⟨"dl", [], ""⟩] ++
  row.flatMap (fun e => (passageValues e.2).flatMap (fun v => [⟨"dt", [], e.1⟩, ⟨"/dt", [], ""⟩, ⟨"dd", [], v⟩, ⟨"/dd", [], ""⟩])) ++
  [⟨"/dl", [], ""⟩, ⟨"/li", [], ""⟩]

/-- The list of results. -/
def resultListTags (asDoc : String → Html.Doc) : Results → List Node
  | .documents rs => ⟨"ul", [("class", "doc-list")], ""⟩ :: rs.flatMap (fun r => docTags (asDoc r.2.2)) ++ [⟨"/ul", [], ""⟩]
  | .passages rs => ⟨"ul", [("class", "doc-list")], ""⟩ :: rs.flatMap (fun r => passageTags r.2.2) ++ [⟨"/ul", [], ""⟩]
  | _ => []

/-- The results, if there are any. -/
def resultBoxTags (asDoc : String → Html.Doc) (total : Nat) (r : Results) : List Node :=
  if found r = 0 then []
  else tags (fun _ => toString total) (resultTags (decide (found r < total))) ++ resultListTags asDoc r ++ [⟨"/li", [], ""⟩]

/-- The forms of a cluster page. -/
def clusterFormTags (i : String) (c next : Int) (pinned : Bool) (es : List Entry) : List Node :=
  let env : String → String := fun n =>
    if n = "index_id" then i else if n = "cluster_id" then toString c else toString next
  if pinned then tags env (pinTags true)
  else
    tags env removeTags ++
    es.flatMap (fun e => tags (fun n =>
      if n = "feature_id" then toString e.fid else if n = "field" then e.field else e.value) chooseTags) ++
    tags env deleteTags ++
    (if es = [] then []
     else tags env visibleTags ++ es.flatMap (fun e => tags (fun _ => toString e.fid) visibleFeatureTags) ++
      tags env visibleEndTags) ++
    tags env (pinTags false) ++ tags env splitTags

/-- The cluster page. -/
def clusterPageTags (fmt : Format σ) (asDoc : String → Html.Doc) (i : String) (feature : Option Nat) (p : ClusterPage σ) : List Node :=
  let es := pageEntries fmt p.features
  let env : String → String := fun n =>
    if n = "index_id" then i else if n = "cluster_id" then toString p.cluster
    else if n = "prev_cluster_id" then toString p.prev else toString p.next
  pageTags ("Cluster " ++ toString p.cluster) (tags env clusterNavTags)
    (searchFormTags i p.fields (some p.cluster) ++ tags env (clusterMenuTags (decide (p.prev ≠ 0 ∨ p.next ≠ 0))) ++
      tags env editTags ++ clusterFormTags i p.cluster p.next p.pinned es ++
      [⟨"/details", [], ""⟩, ⟨"ul", [("class", "cluster-list")], ""⟩] ++ resultBoxTags asDoc p.total p.results ++ [⟨"li", [], ""⟩] ++
      clusterBoxTags i p.cluster es feature ++ [⟨"/li", [], ""⟩, ⟨"/ul", [], ""⟩])

/-- The overview. -/
def indexPageTags (fmt : Format σ) (asDoc : String → Html.Doc) (i : String) (p : IndexPage σ) : List Node :=
  pageTags "Feature Clustering" (tags (fun _ => i) indexNavTags)
    (searchFormTags i p.fields none ++ tags (fun _ => i) indexEditTags ++ resultBoxTags asDoc p.total p.results ++
      (overviewEntries fmt p.clusters).flatMap (fun x => ⟨"li", [], ""⟩ :: listedTags i p.feature p.cluster x ++ [⟨"/li", [], ""⟩]) ++
      [⟨"/ul", [], ""⟩])

/-- The details. -/
def detailsPageTags (i : String) (summary : List FieldRow) (clusters : Nat) : List Node :=
  let env : String → String := fun n => if n = "index_id" then i else toString clusters
  pageTags "Index Details"
    [⟨"li", [], ""⟩, ⟨"a", [("href", textOf env "/index/{{ index_id }}")], "Model Overview"⟩, ⟨"/a", [], ""⟩, ⟨"/li", [], ""⟩]
    (tags env summaryTags ++
      summary.flatMap (fun r => tags (fun n =>
        if n = "field" then r.field else if n = "granularity" then toString r.distinct else if n = "min_value" then written r.minValue
        else if n = "max_value" then written r.maxValue else toString r.positionCount) fieldTags) ++
      tags env recreateTags ++ summary.flatMap (fun r => tags (fun _ => r.field) optionTags) ++ tags env detailsEndTags)

/-- The list of indexes. -/
def listingPageTags (path corpusType : String) : List Node :=
  pageTags "Cluster " [] (tags (fun n =>
    if n = "index_id" then "0" else if n = "index_path" then path else corpusType) listedIndexTags)

/-- No tag is left open in the documents that a corpus gives as markup. -/
def FinishedDocs (asDoc : String → Html.Doc) : Results → Prop
  | .documents rs => ∀ r ∈ rs, ∀ s, asDoc r.2.2 = .markup s → Finished s
  | _ => True

end Hyperreal.Spec.Page
