import Verif.Model.Indexing
import Verif.Model.Dict

/-!
# `PlainTextSqliteCorpus`

The table `doc` is modelled with its rows in the order of `doc_id`.  Not modelled: the journal mode, other tables of the
file, and a source iterator that uses the same connection.  `utilities.tokens` (a regular expression over the text) is an
arbitrary function.
-/

namespace Hyperreal.PlainText
open Atomic

/-- The content of the database file: the table `doc`, if it exists (corpus.py:172-179). -/
abbrev Db := Option (List (Nat × String))

/-- What the source iterator of `replace_docs` produces: a text, `None`, or an exception. -/
inductive Item where
  | text (t : Option String)
  | raise (e : Err)
  deriving DecidableEq

/-- The rowid SQLite assigns to a row inserted without one: one more than the largest. -/
def nextId (rows : List (Nat × String)) : Nat := (rows.map (·.1)).foldr max 0 + 1

/-- `drop table if exists doc` (corpus.py:171). -/
def dropDoc : Db → Except Err (Db × Unit) := fun _ => .ok (none, ())

/-- `create table doc(...)` (corpus.py:172-179). -/
def createDoc : Db → Except Err (Db × Unit)
  | none => .ok (some [], ())
  | some _ => .error .operational

/-- `delete from doc` (corpus.py:181). -/
def deleteDoc : Db → Except Err (Db × Unit)
  | none => .error .operational
  | some _ => .ok (some [], ())

/-- `insert or ignore into doc(text) values(?)` (corpus.py:182-184): a NULL violates `not null` and is ignored. -/
def insertDoc (t : Option String) : Db → Except Err (Db × Unit)
  | none => .error .operational
  | some rows =>
    match t with
    | none => .ok (some rows, ())
    | some s => .ok (some (rows ++ [(nextId rows, s)]), ())

/-- One SQL statement, which may fail for a reason outside the model (a full disk, a lock, an interrupt). -/
def stmt (fault : Option Err) (f : Db → Except Err (Db × Unit)) (c : Conn Db) : Conn Db × Except Err Unit :=
  match fault with
  | some e => (c.log, .error e)
  | none => c.exec f

/-- `executemany(...)` over the source iterator (corpus.py:182-184); `n` numbers the statements. -/
def loadTexts (fault : Nat → Option Err) : Nat → List Item → Conn Db → Conn Db × Except Err Unit
  | _, [], c => (c, .ok ())
  | _, .raise e :: _, c => (c, .error e)
  | n, .text t :: rest, c =>
    match stmt (fault n) (insertDoc t) c with
    | (c, .error e) => (c, .error e)
    | (c, .ok ()) => loadTexts fault (n + 1) rest c

/-- The body of the `try` (corpus.py:170-184). -/
def loadBody (fault : Nat → Option Err) (src : List Item) (c : Conn Db) : Conn Db × Except Err Unit :=
  match stmt (fault 2) dropDoc c with
  | (c, .error e) => (c, .error e)
  | (c, .ok ()) =>
    match stmt (fault 3) createDoc c with
    | (c, .error e) => (c, .error e)
    | (c, .ok ()) =>
      match stmt (fault 4) deleteDoc c with
      | (c, .error e) => (c, .error e)
      | (c, .ok ()) => loadTexts fault 5 src c

/-- The `finally` clause (corpus.py:189-190). -/
def releaseTexts (c : Conn Db) (r : Except Err Unit) : Conn Db × Except Err Unit :=
  match c.release "add_texts" with
  | none => (c, .error .operational)
  | some c => (c, r)

/-- `replace_docs` (corpus.py:165-190).  An `Exception` is swallowed after the rollback. -/
def replaceDocs (fault : Nat → Option Err) (src : List Item) (c : Conn Db) : Conn Db × Except Err Unit :=
  match fault 0 with
  | some e => (c, .error e)
  | none =>
    match fault 1 with
    | some e => (c, .error e)
    | none =>
      match loadBody fault src (c.savepoint "add_texts") with
      | (c, .ok ()) => releaseTexts c (.ok ())
      | (c, .error e) =>
        if e.isException then
          match c.rollbackTo "add_texts" with
          | none => releaseTexts c (.error .operational)
          | some c => releaseTexts c (.ok ())
        else releaseTexts c (.error e)

/-- `keys` (corpus.py:211-212). -/
def keys : Db → Except Err (List Nat)
  | none => .error .operational
  | some rows => .ok (rows.map (·.1))

/-- One document (corpus.py:201-205): `select ... where doc_id = ?`, then `[0]`. -/
def docOf (db : Db) (key : Nat) : Except Err String :=
  match db with
  | none => .error .operational
  | some rows =>
    match (rows.filter (fun r => r.1 = key)).head? with
    | none => .error .indexError
    | some r => .ok r.2

/-- What the generator yields before it ends or raises. -/
def yields (f : Nat → Except Err String) : List Nat → List (Nat × String) × Option Err
  | [] => ([], none)
  | k :: ks =>
    match f k with
    | .error e => ([], some e)
    | .ok t => ((k, t) :: (yields f ks).1, (yields f ks).2)

/-- `docs` (corpus.py:192-209); a document is the dictionary of its `doc_id` and its text.  The savepoint only brackets
reads. -/
def docs (db : Db) (docKeys : Option (List Nat)) : List (Nat × String) × Option Err :=
  match docKeys with
  | some ks => yields (docOf db) ks
  | none =>
    match keys db with
    | .error e => ([], some e)
    | .ok ks => yields (docOf db) ks

/-- `render_docs_table` (corpus.py:223-232): a list, so an exception in the middle leaves nothing. -/
def renderTable (db : Db) (docKeys : List Nat) : Except Err (List (Nat × Dict String String)) :=
  match docs db (some docKeys) with
  | (_, some e) => .error e
  | (l, none) => .ok (l.map (fun p => (p.1, [("text", p.2)])))

/-- `render_docs_html` (corpus.py:219-221). -/
def renderHtml (db : Db) (docKeys : List Nat) : Except Err (List (Nat × String)) :=
  match docs db (some docKeys) with
  | (_, some e) => .error e
  | (l, none) => .ok l

/-- `index` (corpus.py:214-217). -/
def features (tokens : String → List String) (text : String) : Features :=
  [("text", .seq ((tokens text).map (fun t => some (Val.text t))))]

/-- The key as an integer: what a `doc_id = ?` parameter matches. -/
def asKey : Val → Option Nat
  | .int (.ofNat n) => some n
  | _ => none

/-- One document, looked up and indexed; a key that is not a natural number matches no row. -/
def indexed (tokens : String → List String) (db : Db) (k : Val) : Except Err Features :=
  match asKey k with
  | none => .error (match db with | none => .operational | some _ => .indexError)
  | some n =>
    match docOf db n with
    | .error e => .error e
    | .ok t => .ok (features tokens t)

/-- The corpus object as `Index.index` uses it (corpus.py:192-217). -/
def corpus (tokens : String → List String) (rows : List (Nat × String)) : Corpus where
  keys := rows.map (fun r => Val.int r.1)
  docs := fun ks => ks.mapM (indexed tokens (some rows))

end Hyperreal.PlainText
