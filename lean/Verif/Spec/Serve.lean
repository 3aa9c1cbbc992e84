import Verif.Model.Serve
import Verif.Spec.Migrate
import Verif.Spec.Pipeline

/-! # Specification vocabulary for serving -/

namespace Hyperreal.Spec
open Migrate

/-- An index file that can be served: of the current version and at rest, or a genuine one of an older version. -/
def Servable (f : File) : Prop := isIndexDb f = true ∧ ((Current f ∧ Settled f.data) ∨ ∃ v, Genuine v f)

/-- The answer shows documents of the corpus, or parts of them. -/
def ShowsDocuments {σ : Type} [LinearOrder σ] : Web.Answer σ → Prop
  | .cluster p => p.results ≠ .nothing
  | .index p => p.results ≠ .nothing
  | _ => False

/-- The page of cluster `c` in a model of documents: `shows d field v` says that document `d` has the value `v` in the field, `key d`
is its key and `render d` what is shown of it.  The page lists the values of the cluster, each once, counts the documents that
have one of them, and shows `n` of these, or all if there are fewer, each once, with its key. -/
structure IsClusterPage {α σ : Type} [LinearOrder σ] (shows : α → String → Val → Prop) (docs : List α) (key : α → Val)
    (render : α → String) (db : DB) (c : Int) (n : Nat) (p : ClusterPage σ) : Prop where
  cluster : p.cluster = c
  values : ∃ listed, p.features = .ranked listed ∧ (listed.map (fun x => (x.2.1, x.2.2.1))).Nodup ∧
    ∀ field v, (field, v) ∈ listed.map (fun x => (x.2.1, x.2.2.1)) ↔ ValueIn db field v c
  kind : p.type = "document"
  total : p.total = howMany (fun d => ∃ field v, shows d field v ∧ ValueIn db field v c) docs
  documents : ∃ rs, p.results = .documents rs ∧ rs.length = min n p.total ∧ (rs.map (·.2.1)).Nodup ∧
    ∀ r ∈ rs, ∃ d ∈ docs, (∃ field v, shows d field v ∧ ValueIn db field v c) ∧ r.2.1 = key d ∧ r.2.2 = render d

/-- The values listed on a page. -/
def listedValues {σ : Type} : Shown σ → List (String × Val)
  | .ranked rs => rs.map (fun x => (x.2.1, x.2.2.1))
  | .plain rs => rs.map (fun x => (x.field, x.value))

/-- As `IsClusterPage`, for a model that may be older than the documents: values of the cluster that no document has any more are
left out, except if there is no document to show at all. -/
structure IsLaterPage {α σ : Type} [LinearOrder σ] (shows : α → String → Val → Prop) (docs : List α) (key : α → Val)
    (render : α → String) (db : DB) (c : Int) (n : Nat) (p : ClusterPage σ) : Prop where
  cluster : p.cluster = c
  values : (listedValues p.features).Nodup ∧ ∀ field v, (field, v) ∈ listedValues p.features ↔
    ValueIn db field v c ∧ (p.total = 0 ∨ ∃ d ∈ docs, shows d field v)
  kind : p.type = "document"
  total : p.total = howMany (fun d => ∃ field v, shows d field v ∧ ValueIn db field v c) docs
  documents : ∃ rs, p.results = .documents rs ∧ rs.length = min n p.total ∧ (rs.map (·.2.1)).Nodup ∧
    ∀ r ∈ rs, ∃ d ∈ docs, (∃ field v, shows d field v ∧ ValueIn db field v c) ∧ r.2.1 = key d ∧ r.2.2 = render d

end Hyperreal.Spec
