import Verif.Model.Pipeline
import Verif.Model.Routes

/-!
# Serving an index file (cli.py:138-161, 207-230, 252-275, 478-497, server.py:22-35, 569-604)

A `serve` command checks the file once; then each request that reaches a handler of the index opens the corpus and the file anew,
and closes the file at its end (`Model/Routes` has the handlers).  Requests are answered one after the other: CherryPy answers
them in several threads, each with its own connection, and the overlap of their transactions is not modelled here (C61 and C70 have it).
The file may be replaced by another program while it is served; that is not modelled either.
-/

namespace Hyperreal.Serve
open Atomic Migrate Cli Web

/-- A corpus as the server uses it: its documents, and `render_docs_html`, if there is one. -/
abbrev Backing := Corpus × Option (List Val → Except Err (List (Val × String)))

section
variable (int : String → Option Int) {σ : Type} [LinearOrder σ]

/-- Does the request reach `lookup_index`, with the id of the one index there is (server.py:22-26, 593-595)?  The method is
checked before that (`tools.allow`). -/
def opens (r : Request) : Bool :=
  match urlParts r.url with
  | "index" :: p :: parts =>
    match route (p :: parts) with
    | none => false
    | some (i, t) =>
      !(t.needsPost && !r.post) &&
        match r.pathArg "index_id" i with
        | .error _ => false
        | .ok i => int i = some 0
  | _ => false

/-- One request of a session: `web` is what the answer depends on besides the file and the corpus (row orders, workers, random
numbers), `luck` and `fault` the draws and failures of an action. -/
structure Visit (σ : Type) [LinearOrder σ] where
  request : Request
  web : Web σ
  luck : Luck σ
  fault : Nat → Option Err

/-- The index a request works on. -/
def Visit.on (v : Visit σ) (backing : Option Backing) (db : DB) : Web σ := { v.web with db := db, corpus := backing }

/-- One request (server.py:22-35, 593-604): `connect` is the construction of the corpus, which comes first.  The connection is
closed at the end of the request. -/
def request (connect : Except Err (Option Backing)) (f : File) (v : Visit σ) : File × Answer σ :=
  if opens int v.request then
    match connect with
    | .error e => (f, .failed e)
    | .ok backing =>
      match openIndex Faults.none f with
      | (c, .error e) => (c.close, .failed e)
      | (c, .ok _) =>
        let (data, a) := respond int v.luck v.fault (v.on backing c.close.data) v.request
        ({ c.close with data := data }, a)
  else (f, (respond int v.luck v.fault (v.on none f.data) v.request).2)

/-- The requests of a session, one after the other; each may depend on the answers so far. -/
def session (connect : Except Err (Option Backing)) (f : File) : List (Visit σ) → File × List (Answer σ)
  | [] => (f, [])
  | v :: vs =>
    let (f, a) := request int connect f v
    let (f, as) := session connect f vs
    (f, a :: as)

/-- A `serve` command (cli.py:138-161, 207-230, 252-275, 478-497): the file is checked, then served. -/
def serveFile (connect : Except Err (Option Backing)) (f : File) (vs : List (Visit σ)) : File × Except Err (List (Answer σ)) :=
  if isIndexDb f then ((session int connect f vs).1, .ok (session int connect f vs).2) else (f, .error .valueError)

/-- A browser that follows at most `n` redirects, with GET requests. -/
def follow (connect : Except Err (Option Backing)) (f : File) (v : Visit σ) : Nat → File × Answer σ
  | 0 => request int connect f v
  | n + 1 =>
    match request int connect f v with
    | (f', .redirect url) => follow connect f' { v with request := .get url } n
    | x => x

end

/-! ## The corpora -/

/-- `hyperreal serve` (cli.py:478-497): no corpus (server.py:597-602). -/
def noCorpus : Except Err (Option Backing) := .ok none

/-- `render_docs_html` of a plain text corpus (corpus.py:219-221), the keys being values. -/
def plainHtml (db : PlainText.Db) (ks : List Val) : Except Err (List (Val × String)) :=
  ks.mapM (fun k =>
    match PlainText.asKey k with
    | none => .error .indexError
    | some n => (PlainText.docOf db n).map (fun t => (k, t)))

/-- `hyperreal plaintext-corpus serve` (cli.py:138-161).  Opening the corpus reads nothing. -/
def plain (tokens : String → List String) (db : PlainText.Db) : Except Err (Option Backing) :=
  .ok (some ({ keys := (db.getD []).map (fun r => Val.int r.1), docs := fun ks => ks.mapM (PlainText.indexed tokens db) },
    some (plainHtml db)))

/-- `render_docs_html` of a Stack Exchange corpus (corpus.py:670-693) on a connection that nothing else uses, the keys being
values. -/
def sxHtml (order : List String → List String) (db : SX.Db) (ks : List Val) : Except Err (List (Val × String)) :=
  ks.mapM (fun k =>
    match SX.asKey k with
    | none => .error .indexError
    | some n => (SX.renderedFields db n).map (fun r => (k, String.ofList (SX.postHtml order r))))

/-- `hyperreal stackexchange-corpus serve` (cli.py:207-230). -/
def stackExchange (t : SX.TextOps) (scan : List SX.Post → List SX.Post) (order : List String → List String) (db : SX.Db) :
    Except Err (Option Backing) :=
  .ok (some (SX.corpus t scan db, some (sxHtml order db)))

/-- `render_docs_html` of a Twittersphere corpus (corpus.py:987-997); `html` is the template with the columns it reads. -/
def twHtml (t : TW.TextOps) (html : TW.Doc → String) (db : TW.Db) (ks : List Val) : Except Err (List (Val × String)) :=
  ks.mapM (fun k =>
    match TW.asKey k with
    | none => .error .indexError
    | some n => (TW.docOf t db n).map (fun d => (k, html d)))

/-- `hyperreal twittersphere-corpus serve` (cli.py:252-275): the constructor of the corpus may refuse the file. -/
def twittersphere (t : TW.TextOps) (html : TW.Doc → String) (db : TW.Db) : Except Err (Option Backing) :=
  match TW.opens db with
  | .error e => .error e
  | .ok _ => .ok (some (TW.corpus t db, some (twHtml t html db)))

end Hyperreal.Serve
