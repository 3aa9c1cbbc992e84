import Verif.Model.Csv

/-!
# Specification: how values are written in files and pages
-/

namespace Hyperreal.Spec

/-- A number is written in decimal, a text as it is. -/
def written : Val → String
  | .int i => toString i
  | .text s => s

/-- A cell of the table of documents: the key of the document, the number of the cluster, 1 for a mark, a text as it is, and
nothing for nothing. -/
def cellWritten : Option Cell → String
  | some (.key k) => written k
  | some (.cluster c) => toString c
  | some (.text s) => s
  | some .mark => "1"
  | none => ""

end Hyperreal.Spec
