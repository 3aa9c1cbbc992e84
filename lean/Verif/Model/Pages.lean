import Verif.Model.Html
import Verif.Model.Links

/-!
# The pages as text (templates/*.html)

The environment of the server escapes what it shows (server.py:17-19).  The text of the templates is quoted line by line, with
`{{ x }}` for what is shown; line breaks, indentation and the style sheet (base.html:10-216) are left out.  `{% if %}` and
`{% for %}` are those of Lean.
-/

namespace Hyperreal.Pages
open Web

variable {σ : Type}

/-- A character of a template, or an expression it shows. -/
abbrev Cell := Char ⊕ String

/-- The text of a template: `{{ x }}` is an expression.  The first argument is what was read of its name. -/
def cellsOf : Option (List Char) → List Char → List Cell
  | none, '{' :: '{' :: ' ' :: rest => cellsOf (some []) rest
  | none, c :: rest => .inl c :: cellsOf none rest
  | some n, ' ' :: '}' :: '}' :: rest => .inr (String.ofList n) :: cellsOf none rest
  | some n, c :: rest => cellsOf (some (n ++ [c])) rest
  | _, [] => []

/-- Lines of a template. -/
def cells (lines : List String) : List Cell := lines.flatMap (fun s => cellsOf none s.toList)

/-- What is written for a cell: expressions are escaped (`select_autoescape`, server.py:17-19). -/
def cellChars (env : String → String) : Cell → List Char
  | .inl c => [c]
  | .inr n => SX.escaped (some (env n))

/-- The template with the values of its expressions. -/
def fill (env : String → String) (lines : List String) : List Char := (cells lines).flatMap (cellChars env)

/-- What is written for a value (`str`). -/
def valText : Val → String
  | .int n => toString n
  | .text s => s

/-- What is written for an item that may be `None`. -/
def itemShown : Option Val → String
  | none => "None"
  | some v => valText v

/-- How numbers are written: `"{:.2e}".format(x)` for scores and for counts (macros.html:7, 60). -/
structure Format (σ : Type) where
  score : σ → String
  count : Nat → String

/-! ## The frame (base.html) -/

/-- base.html:1-6. -/
def headLines : List String := ["<!DOCTYPE html>", "<html lang=\"en\">", "<head>",
  "<meta name=\"viewport\" content=\"width=device-width, initial-scale=1\"/>", "<title>{{ title }}</title>"]

/-- base.html:8-9, 218-230. -/
def bodyLines : List String := ["<style type=\"text/css\">", "</style>", "</head>", "<body class=\"with-sidebar\" up-main>", "<header>",
  "<h1><a href=\"/\">Feature Clustering</a></h1>", "<nav>", "<ul class=\"nav-links\">"]

/-- base.html:231-234. -/
def mainLines : List String := ["</ul>", "</nav>", "</header>", "<main>"]

/-- base.html:234-237. -/
def footLines : List String := ["</main>", "</body>", "</html>"]

/-- A page with its title, navigation and content. -/
def frame (title : String) (nav content : List Char) : List Char :=
  fill (fun _ => title) headLines ++ fill (fun _ => "") bodyLines ++ nav ++ fill (fun _ => "") mainLines ++ content ++
    fill (fun _ => "") footLines

/-! ## The macros (macros.html) -/

/-- `render_feature` on a cluster page (macros.html:1-11). -/
def featureLines (highlight : Bool) (cluster : Bool) : List String := ["<div>",
  if cluster then "<a href=\"/index/{{ index_id }}/cluster/{{ cluster_id }}/?feature_id={{ feature_id }}\">"
  else "<a href=\"/index/{{ index_id }}/?feature_id={{ feature_id }}\">",
  "<div class=\"feature\">", "<span class=\"field\">{{ field }}</span>",
  if highlight then "<div class=\"value highlight\">{{ value }}</div>" else "<div class=\"value\">{{ value }}</div>",
  "<span class=\"score\">{{ score }}</span>", "</div>", "</a>", "</div>"]

/-- What a list shows of a feature. -/
structure Entry where
  fid : Nat
  field : String
  value : String
  score : String

/-- `render_feature` (macros.html:1-11) within `<li >`, `</li>` (macros.html:64-66). -/
def featureItem (i : String) (c : Int) (cluster : Bool) (highlight : Option Nat) (e : Entry) : List Char :=
  fill (fun n =>
    if n = "index_id" then i else if n = "cluster_id" then toString c else if n = "feature_id" then toString e.fid
    else if n = "field" then e.field else if n = "value" then e.value else e.score)
    (["<li >"] ++ featureLines (decide (some e.fid = highlight)) cluster ++ ["</li>"])

/-- `render_cluster` up to the features (macros.html:57-63). -/
def clusterHeadLines (highlight scored : Bool) : List String := ["<div class=\"feature-cluster\">",
  (if highlight then "<div class=\"cluster-header highlight\">" else "<div class=\"cluster-header \">"),
  (if scored then "Cluster {{ cluster_id }} - {{ cluster_score }}" else "Cluster {{ cluster_id }} "), "</div>",
  "<ul class=\"compact-cluster\">"]

/-- `render_cluster` with the context of an index page after the features (macros.html:71-86). -/
def clusterFootLines (feature cluster : Bool) : List String := ["</ul>", "<div class=\"cluster-footer\">",
  if feature then
    "<a href=\"/index/{{ index_id }}/cluster/{{ cluster_id }}/?feature_id={{ highlight_feature_id }}\">Intersect selected feature</a>"
  else if cluster then
    "<a href=\"/index/{{ index_id }}/cluster/{{ cluster_id }}/?filter_cluster_id={{ highlight_cluster_id }}\">Intersect selected cluster</a>"
  else "<a href=\"/index/{{ index_id }}/cluster/{{ cluster_id }}\"/>See  all in cluster</a>",
  "<a href=\"/index/{{ index_id }}/?cluster_id={{ cluster_id }}\">Pivot</a>", "<label>", "Select for editing:",
  "<input type=\"checkbox\" form=\"cluster_edit\" name=\"cluster_id\" value=\"{{ cluster_id }}\">", "</label>", "</div>", "</div>"]

/-- `render_cluster` (macros.html:57-88) on a cluster page (cluster.html:117-119). -/
def clusterBox (i : String) (c : Int) (es : List Entry) (feature : Option Nat) : List Char :=
  fill (fun _ => toString c) (clusterHeadLines false false) ++ es.flatMap (featureItem i c true feature) ++
    fill (fun _ => "") ["</ul>", "</div>"]

/-- `render_cluster` (macros.html:57-88) on an index page (index.html:42-46). -/
def listedCluster (i : String) (feature : Option Nat) (cluster : Option Int) (x : Int × String × List Entry) : List Char :=
  fill (fun n => if n = "cluster_id" then toString x.1 else x.2.1) (clusterHeadLines (decide (some x.1 = cluster)) true) ++
    x.2.2.flatMap (featureItem i x.1 false feature) ++
    fill (fun n =>
      if n = "index_id" then i else if n = "cluster_id" then toString x.1
      else if n = "highlight_feature_id" then toString (feature.getD 0) else toString (cluster.getD 0))
      (clusterFootLines feature.isSome cluster.isSome)

/-- `render_context_search` before the fields (macros.html:91-95). -/
def searchLines : List String := ["<div class=\"feature-search\">", "<form method=\"get\" action=\"/index/{{ index_id }}/search\">",
  "<label for=\"target_field\">Search field:</label>", "<select name=\"field\" id=\"target_field\">"]

/-- A field to choose (macros.html:97, details.html:47). -/
def optionLines : List String := ["<option value=\"{{ field }}\">{{ field }}</option>"]

/-- `render_context_search` after the fields (macros.html:99-107). -/
def searchEndLines (cluster : Bool) : List String := ["</select>", "<label for=\"site-search\">for</label>",
  "<input type=\"search\" id=\"target_value\" name=\"value\" />", "<button type=\"submit\">Search</button>"] ++
  (if cluster then ["<input type=\"hidden\" name=\"cluster_id\" value=\"{{ cluster_id }}\"/>"] else []) ++ ["</form>", "</div>"]

/-- `render_context_search` (macros.html:91-108); the number 0 counts as false. -/
def contextSearch (i : String) (fields : List String) (cluster : Option Int) : List Char :=
  fill (fun _ => i) searchLines ++ fields.flatMap (fun f => fill (fun _ => f) optionLines) ++
    fill (fun _ => toString (cluster.getD 0)) (searchEndLines (decide (cluster.getD 0 ≠ 0)))

/-- `render_passage` (macros.html:111-119): a row of the dictionary. -/
def passageLine (field value : String) : List Char :=
  fill (fun n => if n = "field" then field else value) ["<dt>{{ field }}</dt>", "<dd>{{ value }}</dd>"]

/-- The values of a field in a passage (macros.html:113-116). -/
def cellTexts : RowCell → List String
  | .values vs => vs.map itemShown
  | .passages ts => ts

/-- `<li>{{ render_passage(passage) }}</li>` (macros.html:129). -/
def passageItem (row : Dict String RowCell) : List Char :=
  fill (fun _ => "") ["<li>", "<dl>"] ++ row.flatMap (fun e => (cellTexts e.2).flatMap (passageLine e.1)) ++
    fill (fun _ => "") ["</dl>", "</li>"]

/-- `render_search_results` (macros.html:122-143) of a list that is not empty.  `asDoc` tells whether what the corpus renders
is `Markup`.  With the type `concordances` the documents are taken for concordances, which they never are: `.items()` of a
text fails (macros.html:28): no page.  The views compute concordances for another type (`concordance`) and replace them. -/
def resultList (asDoc : String → Html.Doc) (type : String) : Results → Option (List Char)
  | .documents rs =>
    if type = "concordances" then none
    else if type = "passage" then none
    else some (Html.docList (rs.map (fun r => asDoc r.2.2)))
  | .passages rs =>
    if type = "concordances" then none
    else if type = "passage" then
      some (fill (fun _ => "") ["<ul class=\"doc-list\">"] ++ rs.flatMap (fun r => passageItem r.2.2) ++ fill (fun _ => "") ["</ul>"])
    else none
  | _ => none

/-- The number of search results. -/
def resultCount : Results → Nat
  | .nothing => 0
  | .concordance rs => rs.length
  | .passages rs => rs.length
  | .documents rs => rs.length

/-- The search results of both pages (cluster.html:106-115, index.html:30-39). -/
def resultBox (asDoc : String → Html.Doc) (type : String) (total : Nat) (r : Results) : Option (List Char) :=
  if resultCount r = 0 then some []
  else do
    let list ← resultList asDoc type r
    return fill (fun _ => toString total) ["<li>", "<div class=\"cluster-header\">",
      if resultCount r < total then "Sample of {{ total_docs }} documents" else "All {{ total_docs }} matching documents.", "</div>"] ++
      list ++ fill (fun _ => "") ["</li>"]

/-! ## The pages -/

/-- The features of a cluster page (server.py:124, 158). -/
def shownEntries (fmt : Format σ) : Shown σ → List Entry
  | .ranked rs => rs.map (fun r => ⟨r.1, r.2.1, valText r.2.2.1, fmt.score r.2.2.2⟩)
  | .plain rs => rs.map (fun r => ⟨r.fid, r.field, valText r.value, fmt.count r.docsCount⟩)

/-- The navigation of a cluster page (cluster.html:7-10). -/
def clusterNavLines : List String := ["<li><a href=\"/index/{{ index_id }}/details\">Index Details</a></li>",
  "<li><a href=\"/index/{{ index_id }}\">Model Overview</a></li>"]

/-- The links of a cluster page (cluster.html:15-22). -/
def clusterMenuLines (others : Bool) : List String := ["<ul class=\"nav-links\">",
  "<li><a href=\"/index/{{ index_id }}/cluster/{{ cluster_id }}\">Cluster Overview</a></li>"] ++
  (if others then ["<li><a href=\"/index/{{ index_id }}/cluster/{{ prev_cluster_id }}\">Previous Cluster</li>",
    "<li><a href=\"/index/{{ index_id }}/cluster/{{ next_cluster_id }}\">Next Cluster</li>"] else []) ++
  ["<li><a href=\"/index/{{ index_id }}/?cluster_id={{ cluster_id }}\">Pivot By Cluster</a></li>", "</ul>"]

/-- cluster.html:24-25. -/
def editLines : List String := ["<details>", "<summary>Edit this cluster</summary>"]

/-- The form to pin or unpin (cluster.html:28-35, 73-80). -/
def pinLines (pinned : Bool) : List String := ["<form method=\"post\" action=\"/index/{{ index_id }}/cluster/pin\">", "<fieldset>",
  "<input type=\"hidden\" name=\"return_to\" value=\"cluster\">",
  "<input type=\"hidden\" name=\"cluster_id\" value=\"{{ cluster_id }}\">"] ++
  (if pinned then ["<input type=\"hidden\" name=\"pinned\" value=\"0\">",
    "<button class=\"inline-button\" type=\"submit\">Unpin Cluster</button>"]
   else ["<input type=\"hidden\" name=\"pinned\" value=\"1\">",
    "<button class=\"inline-button\" type=\"submit\">Pin Cluster</button>"]) ++ ["</fieldset>", "</form>"]

/-- The form to remove features (cluster.html:38-43). -/
def removeLines : List String := ["<form method=\"post\" action=\"/index/{{ index_id }}/feature/remove_from_model\">", "<fieldset>",
  "<label for=\"feature_selection\">Choose features:</label>",
  "<input type=\"hidden\" name=\"cluster_id\" value=\"{{ cluster_id }}\">",
  "<select name=\"feature_id\" id=\"feature_selection\" multiple>"]

/-- A feature to choose (cluster.html:44). -/
def chooseLines : List String := ["<option value=\"{{ feature_id }}\">{{ field }}: {{ value }}</option>"]

/-- The rest of the form and the form to delete the cluster (cluster.html:46-58). -/
def deleteLines : List String := ["</select>", "</fieldset>", "<button type=\"submit\">Delete Selected Features</button>",
  "<button type=\"submit\" formaction=\"/index/{{ index_id }}/cluster/create\" method=\"post\">Create From Selected Features</button>",
  "</form>", "<form method=\"post\" action=\"/index/{{ index_id }}/cluster/delete\">", "<fieldset>",
  "<input type=\"hidden\" name=\"return_cluster_id\" value=\"{{ next_cluster_id }}\">",
  "<input type=\"hidden\" name=\"cluster_id\" value=\"{{ cluster_id }}\">",
  "<button class=\"inline-button\" type=\"submit\">Delete and go to next cluster</button>", "</fieldset>", "</form>"]

/-- The form to make a cluster of what is visible (cluster.html:61-62). -/
def visibleLines : List String := ["<form method=\"post\" action=\"/index/{{ index_id }}/cluster/create\">", "<fieldset>"]

/-- A visible feature (cluster.html:64): the attribute has no quotes. -/
def visibleFeatureLines : List String := ["<input type=\"hidden\" name=\"feature_id\" value={{ feature_id }}>"]

/-- cluster.html:66-68. -/
def visibleEndLines : List String := ["<button type=\"submit\">Create New Cluster From All Visible Features</button>",
  "</fieldset>", "</form>"]

/-- The form to split (cluster.html:82-101). -/
def splitLines : List String := ["<form method=\"post\" action=\"/index/{{ index_id }}/cluster/refine\">", "<fieldset>",
  "<input type=\"hidden\" name=\"cluster_id\" value=\"{{ cluster_id }}\">",
  "<input type=\"hidden\" name=\"return_to\" value=\"cluster\">", "<ul>", "<li>",
  "<label for=\"target_clusters\">Split into how many clusters:</label>",
  "<input id=\"target_clusters\" name=\"target_clusters\" type=\"number\" value=\"2\" />", "</li>", "<li>",
  "<label for=\"iterations\">Number of iterations of refinement after splitting:</label>",
  "<input id=\"iterations\" name=\"iterations\" type=\"number\" value=\"10\" />", "</li>", "<li>",
  "<label for=\"minimum_cluster_features\">Minimum number of features in split clusters:</label>",
  "<input id=\"minimum_cluster_features\" name=\"minimum_cluster_features\" type=\"number\" value=\"1\" />", "</li>", "</ul>",
  "</fieldset>", "<button type=\"submit\">Split Cluster</button>", "</form>"]

/-- The forms of a cluster page (cluster.html:27-102). -/
def clusterForms (i : String) (c next : Int) (pinned : Bool) (es : List Entry) : List Char :=
  let env : String → String := fun n =>
    if n = "index_id" then i else if n = "cluster_id" then toString c else toString next
  if pinned then fill env (pinLines true)
  else
    fill env removeLines ++
    es.flatMap (fun e => fill (fun n =>
      if n = "feature_id" then toString e.fid else if n = "field" then e.field else e.value) chooseLines) ++
    fill env deleteLines ++
    (if es = [] then []
     else fill env visibleLines ++ es.flatMap (fun e => fill (fun _ => toString e.fid) visibleFeatureLines) ++
      fill env visibleEndLines) ++
    fill env (pinLines false) ++ fill env splitLines

/-- The cluster page (cluster.html); `feature` is the one in the URL (`highlight_feature_id`, server.py:157). -/
def clusterHtml (fmt : Format σ) (asDoc : String → Html.Doc) (i : String) (feature : Option Nat) (p : ClusterPage σ) :
    Option (List Char) := do
  let es := shownEntries fmt p.features
  let env : String → String := fun n =>
    if n = "index_id" then i else if n = "cluster_id" then toString p.cluster
    else if n = "prev_cluster_id" then toString p.prev else toString p.next
  let results ← resultBox asDoc p.type p.total p.results
  return frame ("Cluster " ++ toString p.cluster) (fill env clusterNavLines)
    (contextSearch i p.fields (some p.cluster) ++ fill env (clusterMenuLines (decide (p.prev ≠ 0 ∨ p.next ≠ 0))) ++
      fill env editLines ++ clusterForms i p.cluster p.next p.pinned es ++
      fill env ["</details>", "<ul class=\"cluster-list\">"] ++ results ++ fill env ["<li>"] ++
      clusterBox i p.cluster es feature ++ fill env ["</li>", "</ul>"])

/-- The clusters of an index page (server.py:373-408). -/
def listedEntries (fmt : Format σ) : Listing σ → List (Int × String × List Entry)
  | .ranked rs => rs.map (fun x => (x.1, fmt.score x.2.1,
      x.2.2.map (fun r => ⟨r.1, r.2.1, valText r.2.2.1, fmt.score r.2.2.2⟩)))
  | .plain rs => rs.map (fun x => (x.1, fmt.count x.2.1, x.2.2.map (fun r => ⟨r.fid, r.field, valText r.value, fmt.count r.docsCount⟩)))

/-- The navigation of an index page (index.html:7-11). -/
def indexNavLines : List String := ["<li><a href=\"/index/{{ index_id }}/details\">Index Details</a></li>",
  "<li><a href=\"/index/{{ index_id }}\">Model Overview</a></li>",
  "<li><a href=\"/index/{{ index_id }}/export_clusters\">Export Clusters</a></li>"]

/-- The form to edit clusters (index.html:16-27, 29). -/
def indexEditLines : List String := ["<details>", "<summary>Edit Selected Clusters</summary>",
  "<form method=\"post\" id=\"cluster_edit\" action=\"/index/{{ index_id }}/cluster/delete\">",
  "<input type=\"hidden\" name=\"return_to\" value=\"model\">",
  "<label for=\"target_clusters\">Refine selection into how many clusters:</label>",
  "<input id=\"target_clusters\" name=\"target_clusters\" type=\"number\">",
  "<button type=\"submit\" formaction=\"/index/{{ index_id }}/cluster/refine\" method=\"post\">Refine Selected Clusters</button>", "<br>",
  "<button type=\"submit\">Delete Clusters 🗑️</button>",
  "<button type=\"submit\" formaction=\"/index/{{ index_id }}/cluster/merge\" method=\"post\">Merge Clusters</button>", "</form>",
  "</details>", "<ul class=\"cluster-list\">"]

/-- The index page (index.html). -/
def indexHtml (fmt : Format σ) (asDoc : String → Html.Doc) (i : String) (p : IndexPage σ) : Option (List Char) := do
  let results ← resultBox asDoc p.type p.total p.results
  return frame "Feature Clustering" (fill (fun _ => i) indexNavLines)
    (contextSearch i p.fields none ++ fill (fun _ => i) indexEditLines ++ results ++
      (listedEntries fmt p.clusters).flatMap (fun x =>
        fill (fun _ => "") ["<li>"] ++ listedCluster i p.feature p.cluster x ++ fill (fun _ => "") ["</li>"]) ++
      fill (fun _ => "") ["</ul>"])

/-- details.html:11-25. -/
def summaryLines : List String := ["<section>", "<h2>Summary of Indexed Fields</h2>", "<table>", "<thead>", "<tr>", "<th>Field</th>",
  "<th>Cardinality</th>", "<th>Minimum Value</th>", "<th>Maximum Value</th>", "<th>Positions Recorded</th>", "</tr>", "</thead>",
  "<tbody>"]

/-- A field with its values (details.html:27-33). -/
def fieldLines : List String := ["<tr>", "<td>{{ field }}</td>", "<td>{{ granularity }}</td>", "<td>{{ min_value }}</td>",
  "<td>{{ max_value }}</td>", "<td>{{ position_count }}</td>", "</tr>"]

/-- details.html:35-45. -/
def recreateLines : List String := ["</tbody>", "<caption>Fields and value ranges present in this index.</caption>", "</table>",
  "</section>", "<details>", "<summary>Recreate Model</summary>",
  "<form method=\"post\" action=\"/index/{{ index_id }}/recreate_model\">", "<fieldset>", "<ul>", "<li>",
  "<label for=\"field_selection\">Choose fields to include in the model:</label>",
  "<select name=\"include_fields\" id=\"field_selection\" multiple>"]

/-- details.html:49-94. -/
def detailsEndLines : List String := ["</select>", "</li>", "<li>", "<label for=\"iterations\">Number of iterations to run:</label>",
  "<input id=\"iterations\" name=\"iterations\" type=\"number\" value=\"10\" />", "</li>", "<li>",
  "<label for=\"min-docs\">Minimum number of documents a feature needs to retrieve to be included in the model:</label>",
  "<input id=\"min-docs\" name=\"min_docs\" type=\"number\" value=\"10\" />", "</li>", "<li>",
  "<label for=\"clusters\">Number of clusters in the model:</label>",
  "<input id=\"clusters\" name=\"clusters\" type=\"number\" value=\"64\" />", "</li>", "<li>",
  "<label for=\"minimum_cluster_features\">Minimum number of features in split clusters:</label>",
  "<input id=\"minimum_cluster_features\" name=\"minimum_cluster_features\" type=\"number\" value=\"1\" />", "</li>", "</ul>",
  "</fieldset>", "<button type=\"submit\">Recreate Model</button>", "</form>", "</details>", "<details>",
  "<summary>Refine Existing Model</summary>", "<form method=\"post\" action=\"/index/{{ index_id }}/refine_model\">", "<fieldset>",
  "<ul>", "<li>", "<label for=\"iterations\">Number of iterations to run:</label>",
  "<input id=\"iterations\" name=\"iterations\" type=\"number\" value=\"10\" />", "</li>", "<li>",
  "<label for=\"target_clusters\">Target number of clusters (current model contains {{ current_clusters }}):</label>",
  "<input id=\"target_clusters\" name=\"target_clusters\" type=\"number\" value=\"{{ current_clusters }}\" />", "</li>", "<li>",
  "<label for=\"minimum_cluster_features\">Minimum number of features in split clusters:</label>",
  "<input id=\"minimum_cluster_features\" name=\"minimum_cluster_features\" type=\"number\" value=\"1\" />", "</li>", "</ul>",
  "</fieldset>", "<button type=\"submit\">Refine Existing Model</button>", "</form>", "</details>"]

/-- A row of the field summary (details.html:27-33). -/
def fieldRow (r : FieldRow) : List Char :=
  fill (fun n =>
    if n = "field" then r.field else if n = "granularity" then toString r.distinct else if n = "min_value" then valText r.minValue
    else if n = "max_value" then valText r.maxValue else toString r.positionCount) fieldLines

/-- The details (details.html). -/
def detailsHtml (i : String) (summary : List FieldRow) (clusters : Nat) : List Char :=
  let env : String → String := fun n => if n = "index_id" then i else toString clusters
  frame "Index Details" (fill env ["<li><a href=\"/index/{{ index_id }}\">Model Overview</a></li>"])
    (fill env summaryLines ++ summary.flatMap fieldRow ++ fill env recreateLines ++
      summary.flatMap (fun r => fill (fun _ => r.field) optionLines) ++ fill env detailsEndLines)

/-- The list of indexes (index_listing.html) with the one index there is (server.py:606-614): its path and the type of its
corpus (nothing without a corpus, since undefined expressions are shown as nothing; so is the number in the title). -/
def listingHtml (path corpusType : String) : List Char :=
  frame "Cluster " [] (fill (fun n =>
    if n = "index_id" then "0" else if n = "index_path" then path else corpusType)
    ["<ul class=\"compact-cluster\">", "<li><a href=\"/index/{{ index_id }}\">{{ index_path }}, {{ corpus_class.CORPUS_TYPE }}</a></li>",
     "</ul>"])

end Hyperreal.Pages
