import Verif.Spec.SxRender
import Verif.Model.Html

/-!
# Specification: text shown as text
-/

namespace Hyperreal.Spec

/-- What is read where a page has the given text, the references for the five special characters replaced. -/
def readText : List Char → List Char
  | '&' :: 'a' :: 'm' :: 'p' :: ';' :: rest => '&' :: readText rest
  | '&' :: 'l' :: 't' :: ';' :: rest => '<' :: readText rest
  | '&' :: 'g' :: 't' :: ';' :: rest => '>' :: readText rest
  | '&' :: '#' :: '3' :: '9' :: ';' :: rest => '\'' :: readText rest
  | '&' :: '#' :: '3' :: '4' :: ';' :: rest => '"' :: readText rest
  | c :: rest => c :: readText rest
  | [] => []

/-- All tags in the text are finished in it: what follows is read as if it came first. -/
def Closed (s : List Char) : Prop := ∀ rest, markup none (s ++ rest) = markup none s ++ markup none rest

/-- The data that the template shows without escaping has no unfinished tags, and urls have no angle brackets. -/
structure Unharmful (r : SX.Base × List String × List SX.CommentView) : Prop where
  url : Plain r.1.url.toList
  kind : Closed r.1.kind.toList
  license : Closed (SX.verbatim r.1.license)
  name : Closed (SX.verbatim r.1.name)
  body : Closed (SX.verbatim r.1.body)
  link : Plain (SX.verbatim r.1.link)
  tags : ∀ t ∈ r.2.1, Closed t.toList
  comments : ∀ c ∈ r.2.2, Plain c.url.toList ∧ Closed (SX.verbatim c.license) ∧ Closed (SX.verbatim c.name)

end Hyperreal.Spec
