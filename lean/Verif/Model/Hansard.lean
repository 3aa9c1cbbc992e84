import Verif.Model.Indexing
import Verif.Model.Datetime
import Verif.Model.Atomic

/-!
# The example corpus of the Australian Hansard (examples/australian_federal_hansard/hansard_corpus.py)

The example program written on top of the library.  The HTML parser, the tokeniser and `date.fromisoformat` are parameters; starting
the process pool and the web server (hansard_corpus.py:128-165) is not modelled.
-/

namespace Hyperreal.Hansard
open Atomic

/-- A `datetime.date`. -/
structure Date where
  year : Nat
  month : Nat
  day : Nat
  deriving DecidableEq, Repr

/-- What the constructor of `date` checks; every date `fromisoformat` returns is valid (hansard_corpus.py:72). -/
def Date.valid (d : Date) : Bool :=
  1 ≤ d.year && d.year ≤ 9999 && 1 ≤ d.month && d.month ≤ 12 && 1 ≤ d.day && d.day ≤ Datetime.daysIn d.year d.month

/-- `date.replace` (hansard_corpus.py:73-74): the changed copy, checked by the constructor. -/
def Date.replace (f : Date → Date) (d : Date) : Except Err Date :=
  if (f d).valid then .ok (f d) else .error .valueError

/-- `date.isoformat` (hansard_corpus.py:80-82): `YYYY-MM-DD`, padded with zeros; years have at most four digits. -/
def Date.iso (d : Date) : String :=
  let digit (n : Nat) : Char := Nat.digitChar (n % 10)
  String.ofList [digit (d.year / 1000), digit (d.year / 100), digit (d.year / 10), digit d.year, '-',
    digit (d.month / 10), digit d.month, '-', digit (d.day / 10), digit d.day]

/-- A row of `proceedings_page` (hansard_corpus.py:48-60); columns may be NULL. -/
structure Page where
  id : Val
  url : Option String
  debate : Option Val
  date : Option String
  house : Option String
  parl : Option Int
  html : Option String
  deriving DecidableEq

/-- The database the example reads (hansard_corpus.py:30-35): the pages, and the id and title of each debate.  `title` is taken to be
a column of `debate`; `access_time` is read but not used. -/
structure Db where
  pages : List Page := []
  debates : List (Val × Option String) := []

/-- A parsed page (hansard_corpus.py:68): what `itertext()` yields, and tag and classes of each element of `iter()`, in document
order. -/
structure Parsed where
  texts : List String
  elements : List (String × List String)

/-- The text functions: `tokens` (utilities.py), `html.fromstring`, `date.fromisoformat`. -/
structure TextOps where
  tokens : String → List String
  parse : String → Except Err Parsed
  fromIso : String → Except Err Date

/-- A document as yielded by `docs`: a page with the title of its debate (hansard_corpus.py:46-64). -/
structure Doc where
  page : Page
  title : Option String
  deriving DecidableEq

/-- `list(self.db.execute("... inner join debate using(debate_id) where page_id = ?"))[0]` (hansard_corpus.py:46-64): NULL joins
nothing. -/
def docOf (db : Db) (key : Val) : Except Err Doc :=
  let rows := (db.pages.filter (fun p => p.id = key)).flatMap (fun p =>
    (db.debates.filter (fun d => p.debate = some d.1)).map (fun d => (⟨p, d.2⟩ : Doc)))
  match rows.head? with
  | none => .error .indexError
  | some d => .ok d

/-- `" ".join(root.itertext())` (hansard_corpus.py:70). -/
def pageText (p : Parsed) : String := " ".intercalate p.texts

/-- `index` (hansard_corpus.py:67-93).  NULL html and NULL dates raise `TypeError`. -/
def features (t : TextOps) (d : Doc) : Except Err Features :=
  match d.page.html with
  | none => .error .typeError
  | some h =>
    match t.parse h with
    | .error e => .error e
    | .ok root =>
      match d.page.date with
      | none => .error .typeError
      | some s =>
        match t.fromIso s with
        | .error e => .error e
        | .ok date =>
          match date.replace (fun x => { x with day := 1 }) with
          | .error e => .error e
          | .ok month =>
            match month.replace (fun x => { x with month := 1 }) with
            | .error e => .error e
            | .ok year =>
              .ok [
                ("page", .seq ((t.tokens (pageText root)).map (fun w => some (.text w)))),
                ("house", .bag [d.page.house.map .text]),
                ("debate_id", .bag [d.page.debate]),
                ("date", .bag [some (.text date.iso)]),
                ("month", .bag [some (.text month.iso)]),
                ("year", .bag [some (.text year.iso)]),
                ("parl_no", .bag [d.page.parl.map .int]),
                ("html_classes", .bag ((root.elements.flatMap (·.2)).map (fun c => some (.text c)))),
                ("html_tags", .bag (root.elements.map (fun e => some (.text e.1))))]

/-- One document, looked up and indexed. -/
def indexed (t : TextOps) (db : Db) (k : Val) : Except Err Features :=
  match docOf db k with
  | .error e => .error e
  | .ok d => features t d

/-- The corpus object as `Index.index` uses it (hansard_corpus.py:37-93, 120-125); rows of `proceedings_page` in table order. -/
def corpus (t : TextOps) (db : Db) : Corpus where
  keys := db.pages.map (·.id)
  docs := fun ks => ks.mapM (indexed t db)

/-- `", ".join(doc[item] for item in ("date", "house", "title") if doc[item])` (hansard_corpus.py:100-102): NULL and empty texts are
left out. -/
def summary (d : Doc) : String :=
  ", ".intercalate (([d.page.date, d.page.house, d.title].filterMap id).filter (· ≠ ""))

/-- `"{}".format(x)` of a text or NULL (hansard_corpus.py:104-114). -/
def orNull (x : Option String) : String := x.getD "None"

/-- The markup of a page (hansard_corpus.py:104-114): `str.format`, so nothing is escaped, and `Markup`, so nothing will be. -/
def docHtml (d : Doc) : String :=
  "\n                <details>\n                    <summary>" ++ summary d ++
  "</summary>\n                    <div>\n                        <a href=\"" ++ orNull d.page.url ++
  "\">See in context</a>\n                    </div>\n                    <div>" ++ orNull d.page.html ++
  "</div>\n                </details>\n                "

/-- `render_docs_html` (hansard_corpus.py:95-118): the savepoint of `docs` is released whatever happens (hansard_corpus.py:64-65). -/
def renderHtml (keys : List Val) (c : Conn Db) : Conn Db × Except Err (List (Val × String)) :=
  let c := c.savepoint "docs"
  let r := keys.mapM (fun k => (docOf c.work k).map (fun d => (k, docHtml d)))
  match c.release "docs" with
  | none => (c, .error .operational)
  | some c => (c, r)

end Hyperreal.Hansard
