import Verif.Spec.Indexing
import Verif.Spec.SearchScreen
import Verif.Spec.PageTags
import Verif.Model.Pages
import Verif.Model.Links

/-! # Specification vocabulary for the page with the details of an index -/

namespace Hyperreal.Spec

variable {α σ : Type} [LinearOrder σ]

/-- The rows describe the documents: there is one for each field of which a document has a value or a value was `known` before, with
the number of these values, the least and the greatest of them, and the number of `positions` of the field. -/
structure Summarized (shows : α → String → Val → Prop) (docs : List α) (known : String → Val → Prop) (positions : String → Nat)
    (rows : List FieldRow) : Prop where
  once : (rows.map (·.field)).Nodup
  fields : ∀ field, field ∈ rows.map (·.field) ↔ ∃ v, (∃ d ∈ docs, shows d field v) ∨ known field v
  values : ∀ row ∈ rows, ∃ vs : List Val, vs.Nodup ∧ (∀ v, v ∈ vs ↔ (∃ d ∈ docs, shows d row.field v) ∨ known row.field v) ∧
    row.distinct = vs.length ∧ row.minValue ∈ vs ∧ row.maxValue ∈ vs ∧
    ∀ v ∈ vs, Val.le row.minValue v = true ∧ Val.le v row.maxValue = true
  positions : ∀ row ∈ rows, row.positionCount = positions row.field

/-- What a visitor sees who asks for the details of an index with `clusters` clusters: rows that describe the documents, and the
number of clusters.  It can be read as the tags of the template.  Without clusters the overview leads to the same page. -/
structure ShowsDetails (ask : Web.Request → Nat → Migrate.File × Web.Answer σ) (shows : α → String → Val → Prop) (docs : List α)
    (known : String → Val → Prop) (positions : String → Nat) (clusters : Nat) : Prop where
  details : ∃ rows, Summarized shows docs known positions rows ∧ (ask (.get "/index/0/details") 0).2 = .details rows clusters ∧
    (clusters = 0 → (ask (.get "/index/0") 2).2 = .details rows 0) ∧
    Page.nodes (Pages.detailsHtml "0" rows clusters) = Page.detailsPageTags "0" rows clusters

end Hyperreal.Spec
