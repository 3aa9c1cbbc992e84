import Verif.Spec.PageTags

/-!
# Specification: what a user can do with a page

The links of a page, and the requests a browser sends when a button is pressed: the forms of a page are read from its tags,
following the HTML standard for what occurs in these pages.
-/

namespace Hyperreal.Spec.Page
open Web Pages

variable {σ : Type}

/-! ## Links -/

/-- An attribute of a tag. -/
def Node.attr (n : Node) (name : String) : Option String := n.attrs.lookup name

/-- The links of a page: where each leads, and what is written on it up to the next tag. -/
def links (ns : List Node) : List (String × String) :=
  ns.filterMap (fun n => if n.tag = "a" then (n.attr "href").map (fun u => (u, n.text)) else none)

/-- What is written on a link (on those of features other tags follow). -/
def caption : Label → String
  | .home => "Feature Clustering"
  | .indexDetails => "Index Details"
  | .modelOverview => "Model Overview"
  | .exportClusters => "Export Clusters"
  | .clusterOverview => "Cluster Overview"
  | .previousCluster => "Previous Cluster"
  | .nextCluster => "Next Cluster"
  | .pivotByCluster => "Pivot By Cluster"
  | .feature _ => ""
  | .intersectFeature _ => "Intersect selected feature"
  | .intersectCluster _ => "Intersect selected cluster"
  | .seeAll _ => "See  all in cluster"
  | .pivot _ => "Pivot"
  | .anIndex _ => ""

/-- Links with what is written on them. -/
def captioned (l : List (Label × String)) : List (String × String) := l.map (fun x => (x.2, caption x.1))

/-- The links in the documents that are shown: those of documents that are markup. -/
def docLinks (asDoc : String → Html.Doc) : Results → List (String × String)
  | .documents rs => rs.flatMap (fun r => match asDoc r.2.2 with | .text _ => [] | .markup s => links (nodes s))
  | _ => []

/-! ## Forms -/

/-- What a form has to fill in. -/
inductive Control where
  | hidden (name value : String)
  | typed (name : String)
  | tick (name value : String)
  | choose (name : String) (many : Bool) (options : List String)

/-- A form, with the addresses of its buttons that have their own. -/
structure Form where
  id : Option String
  post : Bool
  action : String
  controls : List Control
  buttons : List (Option String)

/-- The forms read so far, the one that is open, and the list of options that is open. -/
structure FormReader where
  forms : List Form
  cur : Option Form
  sel : Option (String × Bool × List String)

/-- The control of an `input`. -/
def Node.control (n : Node) : Control :=
  if n.attr "type" = some "hidden" then .hidden ((n.attr "name").getD "") ((n.attr "value").getD "")
  else if n.attr "type" = some "checkbox" then .tick ((n.attr "name").getD "") ((n.attr "value").getD "")
  else .typed ((n.attr "name").getD "")

def Form.add (f : Form) (c : Control) : Form := { f with controls := f.controls ++ [c] }

/-- One tag. -/
def FormReader.step (r : FormReader) (n : Node) : FormReader :=
  if n.tag = "form" then
    { r with cur := some ⟨n.attr "id", decide (n.attr "method" = some "post"), (n.attr "action").getD "", [], []⟩ }
  else if n.tag = "/form" then { r with forms := r.forms ++ r.cur.toList, cur := none }
  else if n.tag = "input" then
    match n.attr "form" with
    | some id => { r with forms := r.forms.map (fun f => if f.id = some id then f.add n.control else f) }
    | none => { r with cur := r.cur.map (fun f => f.add n.control) }
  else if n.tag = "select" then { r with sel := some ((n.attr "name").getD "", (n.attr "multiple").isSome, []) }
  else if n.tag = "option" then
    { r with sel := r.sel.map (fun s => (s.1, s.2.1, s.2.2 ++ [(n.attr "value").getD ""])) }
  else if n.tag = "/select" then
    match r.sel with
    | some (name, many, options) => { r with cur := r.cur.map (fun f => f.add (.choose name many options)), sel := none }
    | none => r
  else if n.tag = "button" then
    { r with cur := r.cur.map (fun f => { f with buttons := f.buttons ++ [n.attr "formaction"] }) }
  else r

/-- The tags that matter for forms. -/
def formTags : List String := ["form", "/form", "input", "select", "option", "/select", "button"]

/-- The documents that a corpus gives as markup have no forms of their own. -/
def FormFree (asDoc : String → Html.Doc) : Results → Prop
  | .documents rs => ∀ r ∈ rs, ∀ s, asDoc r.2.2 = .markup s → ∀ n ∈ nodes s, n.tag ∉ formTags
  | _ => True

/-- The forms of a page. -/
def forms (ns : List Node) : List Form := (ns.foldl FormReader.step ⟨[], none, none⟩).forms

/-- What can be sent for a control: a box is ticked or not, any text may be typed, of a list any or one of the options can be
selected (nothing is sent for a list without options). -/
inductive Sends : Control → List (String × String) → Prop where
  | hidden (name value : String) : Sends (.hidden name value) [(name, value)]
  | typed (name x : String) : Sends (.typed name) [(name, x)]
  | ticked (name value : String) : Sends (.tick name value) [(name, value)]
  | unticked (name value : String) : Sends (.tick name value) []
  | many (name : String) (options l : List String) (h : l.Sublist options) : Sends (.choose name true options) (l.map (fun v => (name, v)))
  | one (name : String) (options : List String) (v : String) (h : v ∈ options) : Sends (.choose name false options) [(name, v)]
  | noOptions (name : String) : Sends (.choose name false []) []

/-- The requests that a form can send. -/
def Form.requests (f : Form) : Set Request :=
  {r | ∃ b ∈ f.buttons, ∃ args, List.Forall₂ Sends f.controls args ∧ r = ⟨f.post, b.getD f.action, args.flatten⟩}

/-- The requests that a user can send from a page with its forms. -/
def requests (ns : List Node) : Set Request := {r | ∃ f ∈ forms ns, r ∈ f.requests}

end Hyperreal.Spec.Page
