import Verif.Model.Atomic

/-!
# Model of `requires_corpus`: which methods of an index need what from the attached corpus
-/

namespace Hyperreal.CorpusCheck
open Atomic

/-- The three protocols (corpus.py:33-111). -/
inductive Protocol where
  | base | web | table
  deriving DecidableEq, Repr

/-- The members of `BaseCorpus` (corpus.py:45-86). -/
def baseMembers : List String := ["CORPUS_TYPE", "docs", "keys", "index", "close", "__getitem__", "__iter__"]

/-- The attributes a runtime checkable protocol looks for: its annotated attributes and its methods, with those of the
protocols it extends (corpus.py:45-86, 90-94, 98-111). -/
def Protocol.members : Protocol → List String
  | .base => baseMembers
  | .web => baseMembers ++ ["render_docs_html"]
  | .table => baseMembers ++ ["table_fields", "render_docs_table"]

/-- A corpus object as `isinstance` sees it: the names of its attributes and the protocols its class names among its bases.
Simplification: an attribute that is set to `None` counts as missing. -/
structure CorpusObject where
  attrs : List String
  bases : List Protocol
  deriving DecidableEq, Repr

/-- Does the class inherit from the protocol?  The two richer protocols extend the basic one (corpus.py:90, 98). -/
def CorpusObject.inherits (k : CorpusObject) (p : Protocol) : Bool := p ∈ k.bases || (p = .base && !k.bases.isEmpty)

/-- `isinstance(self.corpus, RequiredCorpus)` (index.py:68) for a runtime checkable protocol: by inheritance, or because all
members are there. -/
def CorpusObject.isInstance (k : CorpusObject) (p : Protocol) : Bool := k.inherits p || p.members.all (· ∈ k.attrs)

/-- What `SqliteBackedCorpus` has (corpus.py:114-147), including what it inherits from `BaseCorpus` (but not `CORPUS_TYPE`,
which is only annotated there). -/
def sqliteBacked : CorpusObject :=
  ⟨["docs", "keys", "index", "close", "__getitem__", "__iter__", "db_path", "_db", "db", "__getstate__", "__setstate__"], [.base]⟩

/-- `PlainTextSqliteCorpus` (corpus.py:150-232). -/
def plainText : CorpusObject :=
  { sqliteBacked with attrs := sqliteBacked.attrs ++
      ["CORPUS_TYPE", "table_fields", "tokeniser", "replace_docs", "render_docs_html", "render_docs_table"] }

/-- `StackExchangeCorpus` (corpus.py:235-766). -/
def stackExchange : CorpusObject :=
  { sqliteBacked with attrs := sqliteBacked.attrs ++
      ["CORPUS_TYPE", "table_fields", "add_site_data", "TEMPLATE", "_get_rendered_doc_fields", "render_docs_html", "render_docs_table"] }

/-- `TwittersphereCorpus` (corpus.py:769-1090): there is no `table_fields` and no `render_docs_table`. -/
def twittersphere : CorpusObject :=
  { sqliteBacked with attrs := sqliteBacked.attrs ++ ["CORPUS_TYPE", "_retrieve_user", "TEMPLATE", "render_docs_html"] }

/-- The methods of `Index` that carry `requires_corpus`. -/
inductive Method where
  | index | docs | extractMatchingFeatureWindows | renderPassagesTable | renderDocsHtml | renderDocsTable | exportDocumentSample
  deriving DecidableEq, Repr

/-- The argument of the decorator (index.py:300, 631, 638, 746, 791, 807, 869). -/
def Method.required : Method → Protocol
  | .index => .base
  | .docs => .base
  | .extractMatchingFeatureWindows => .base
  | .renderPassagesTable => .base
  | .renderDocsHtml => .web
  | .renderDocsTable => .table
  | .exportDocumentSample => .table

/-- `requires_corpus` (index.py:60-73): the exception raised before the function is called, if any. -/
def refusal (p : Protocol) : Option CorpusObject → Option Err
  | none => some .corpusMissing
  | some k => if k.isInstance p then none else some .unsupportedCorpus

variable {σ V : Type}

/-- The method without the check: `extract_matching_feature_windows`, `render_passages_table` and `export_document_sample`
run inside `atomic` (index.py:639, 747, 868), the others take care of transactions themselves. -/
def Method.plain (m : Method) (hk : Housekeeping σ) (body : Prog σ V) (c : Conn σ) : Conn σ × Except Err V :=
  match m with
  | .extractMatchingFeatureWindows => callMethod hk "extract_matching_feature_windows" false body c
  | .renderPassagesTable => callMethod hk "render_passages_table" false body c
  | .exportDocumentSample => callMethod hk "export_document_sample" false body c
  | _ => run hk body c

/-- Calling a method that requires a corpus.  The check comes first, except in `export_document_sample`, where `atomic` is
the outer decorator (index.py:868-869). -/
def Method.call (m : Method) (corpus : Option CorpusObject) (hk : Housekeeping σ) (body : Prog σ V) (c : Conn σ) :
    Conn σ × Except Err V :=
  match refusal m.required corpus with
  | none => m.plain hk body c
  | some e =>
    match m with
    | .exportDocumentSample => callMethod hk "export_document_sample" false (.ret (.error e)) c
    | _ => (c, .error e)

end Hyperreal.CorpusCheck
