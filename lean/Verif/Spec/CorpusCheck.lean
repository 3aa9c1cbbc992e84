import Verif.Model.CorpusCheck

/-!
# What each method needs from a corpus
-/

namespace Hyperreal.Spec
open CorpusCheck

/-- What every corpus offers. -/
def everyCorpus : List String := ["CORPUS_TYPE", "docs", "keys", "index", "close", "__getitem__", "__iter__"]

/-- What a method needs from the corpus: all need what every corpus has; the HTML view also needs the HTML rendering, the
table view and the spreadsheet export also need the rendering as table rows and the names of the columns. -/
def needs (m : Method) (name : String) : Prop :=
  name ∈ everyCorpus ∨
  (m = .renderDocsHtml ∧ name = "render_docs_html") ∨
  ((m = .renderDocsTable ∨ m = .exportDocumentSample) ∧ (name = "table_fields" ∨ name = "render_docs_table"))

end Hyperreal.Spec
