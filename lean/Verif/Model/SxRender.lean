import Verif.Model.StackExchange
import Verif.Model.Query

/-!
# Rendering of StackExchange posts

`render_docs_html` and `render_docs_table` of `StackExchangeCorpus`, the template of the HTML, `json.dumps` for the comments.
A Python `None` is `none`.  The sets of tags are lists, and the order in which Python visits them is a parameter.
-/

namespace Hyperreal.SX
open Atomic

/-- `base_fields` (corpus.py:601-634). -/
structure Base where
  site : Nat
  url : String
  id : Option Int
  tagPost : Option Int
  owner : Option Int
  name : Option String
  license : Option String
  kind : String
  body : Option String
  parent : Option Int
  question : Option String
  link : Option String
  deriving DecidableEq

/-- A row of `user_comments` (corpus.py:644-664). -/
structure CommentView where
  url : String
  user : Option Int
  name : Option String
  text : Option String
  license : Option String
  deriving DecidableEq

/-- The scalar sub-query for a user's name, here without a default (corpus.py:612-618, 650-656). -/
def userName (db : Db) (site : Nat) (user : Option Int) : Option String :=
  match user with
  | none => none
  | some u => ((db.users.filter (fun x => x.key = some (site, u))).head?).bind (·.name)

/-- `parent.Title` of the left outer join (corpus.py:626-628): NULL when there is no such post. -/
def parentTitle (db : Db) (p : Post) : Option String :=
  match p.parent with
  | none => none
  | some i => ((db.posts.filter (fun q => q.key = some (p.site, i))).head?).bind (·.title)

/-- `site_url || '/questions/' || Post.Id` (corpus.py:624): NULL when the id is. -/
def liveLink (url : String) (id : Option Int) : Option String := id.map (fun i => url ++ "/questions/" ++ toString i)

/-- `_get_rendered_doc_fields` (corpus.py:601-668). -/
def renderedFields (db : Db) (key : Nat) : Except Err (Base × List String × List CommentView) :=
  match (db.posts.filter (fun p => p.docId = key)).head? with
  | none => .error .indexError
  | some p =>
    match (db.sites.filter (fun s => s.id = p.site)).head? with
    | none => .error .indexError
    | some s =>
      .ok ({ site := p.site, url := s.url, id := p.id, tagPost := p.tagPost, owner := p.owner, name := userName db p.site p.owner,
             license := p.license, kind := p.kind, body := p.body, parent := p.parent,
             question := p.title.or (parentTitle db p), link := liveLink s.url p.id },
        (db.tags.filter (fun t => t.site = p.site ∧ some t.post = p.tagPost)).map (·.tag),
        (db.comments.filter (fun c => c.site = p.site ∧ c.post ≠ none ∧ c.post = p.id)).map
          (fun c => ⟨s.url, c.user, userName db c.site c.user, c.text, c.license⟩))

/-- The loop shared by the two methods (corpus.py:670-693, 695-717): a savepoint around reads, with no `finally`: when a key
is unknown the savepoint stays. -/
def renderDocs {α : Type} (sp : String) (f : Base × List String × List CommentView → α) (keys : List Nat) (c : Conn Db) :
    Conn Db × Except Err (List (Nat × α)) :=
  let c := c.savepoint sp
  match keys.mapM (fun k => (renderedFields c.work k).map (fun r => (k, f r))) with
  | .error e => (c, .error e)
  | .ok l =>
    match c.release sp with
    | none => (c, .error .operational)
    | some c => (c, .ok l)

/-! ## The table -/

/-- A digit of `\uXXXX`. -/
def hexDigit (n : Nat) : Char := (['0', '1', '2', '3', '4', '5', '6', '7', '8', '9', 'a', 'b', 'c', 'd', 'e', 'f'][n]?).getD '0'

/-- `\uXXXX` for a code unit. -/
def jsonUnit (n : Nat) : List Char :=
  ['\\', 'u', hexDigit (n / 4096 % 16), hexDigit (n / 256 % 16), hexDigit (n / 16 % 16), hexDigit (n % 16)]

/-- One character in `json.dumps(..., ensure_ascii=True)` (corpus.py:704): outside the range from space to tilde it is
escaped, beyond the basic plane with a surrogate pair. -/
def jsonChar (c : Char) : List Char :=
  if c = '"' then ['\\', '"']
  else if c = '\\' then ['\\', '\\']
  else if c = '\n' then ['\\', 'n']
  else if c = '\r' then ['\\', 'r']
  else if c = '\t' then ['\\', 't']
  else if c.toNat = 12 then ['\\', 'f']
  else if c.toNat = 8 then ['\\', 'b']
  else if 32 ≤ c.toNat ∧ c.toNat ≤ 126 then [c]
  else if c.toNat < 65536 then jsonUnit c.toNat
  else jsonUnit (55296 + (c.toNat - 65536) / 1024) ++ jsonUnit (56320 + (c.toNat - 65536) % 1024)

/-- A string or `None` in `json.dumps` (corpus.py:704). -/
def jsonValue : Option String → List Char
  | none => ['n', 'u', 'l', 'l']
  | some s => '"' :: s.toList.flatMap jsonChar ++ ['"']

/-- The dictionary of one comment (corpus.py:706-709). -/
def jsonComment (c : CommentView) : List Char :=
  "{\"DisplayName\": ".toList ++ jsonValue c.name ++ ", \"Text\": ".toList ++ jsonValue c.text ++
    ", \"ContentLicense\": ".toList ++ jsonValue c.license ++ ['}']

/-- `json.dumps([...])` of the comments (corpus.py:704-712). -/
def jsonComments (cs : List CommentView) : List Char :=
  '[' :: [',', ' '].intercalate (cs.map jsonComment) ++ [']']

/-- `table_fields` (corpus.py:237-250). -/
def tableFields : List String :=
  ["site_url", "Id", "OwnerUserId", "DisplayName", "ContentLicense", "PostType", "Body", "ParentId", "QuestionTitle", "LiveLink",
   "tags", "comments"]

/-- The members of the dictionary that `render_docs_table` makes for a post, as texts (corpus.py:701-713); `none` is `None`.
`order` is the order in which the set of tags is visited. -/
def tableMembers (order : List String → List String) (r : Base × List String × List CommentView) : List (String × Option String) :=
  [("site_id", some (toString r.1.site)), ("site_url", some r.1.url), ("Id", r.1.id.map toString),
   ("TagPostId", r.1.tagPost.map toString), ("OwnerUserId", r.1.owner.map toString), ("DisplayName", r.1.name),
   ("ContentLicense", r.1.license), ("PostType", some r.1.kind), ("Body", r.1.body), ("ParentId", r.1.parent.map toString),
   ("QuestionTitle", r.1.question), ("LiveLink", r.1.link), ("tags", some (", ".intercalate (order r.2.1))),
   ("comments", some (String.ofList (jsonComments r.2.2)))]

/-- The dictionary as the exporting code sees it: `None` is written as an empty cell, as an absent member is
(index.py:889-895), and so such members are left out. -/
def tableRow (order : List String → List String) (r : Base × List String × List CommentView) : Rendered :=
  (tableMembers order r).filterMap (fun e => e.2.map (fun s => (e.1, Cell.text s)))

/-- `render_docs_table` (corpus.py:695-717). -/
def renderTable (order : List String → List String) (keys : List Nat) (c : Conn Db) :
    Conn Db × Except Err (List (Nat × Rendered)) :=
  renderDocs "render_docs_spreadsheet" (tableRow order) keys c

/-! ## The HTML -/

/-- The characters of the templates' own text (corpus.py:548-599, 959-986). -/
@[irreducible] def lit (s : String) : List Char := s.toList

/-- `| e` of Jinja (markupsafe.escape). -/
def escapeChar (c : Char) : List Char :=
  if c = '&' then "&amp;".toList
  else if c = '<' then "&lt;".toList
  else if c = '>' then "&gt;".toList
  else if c = '\'' then "&#39;".toList
  else if c = '"' then "&#34;".toList
  else [c]

/-- `{{ x | e }}` (corpus.py:551, 581); `None` is shown as such. -/
def escaped (x : Option String) : List Char := ((x.getD "None").toList).flatMap escapeChar

/-- `{{ x }}` in a `Template` without autoescaping (corpus.py:548): the text as it is. -/
def verbatim (x : Option String) : List Char := (x.getD "None").toList

/-- A person (corpus.py:558-564, 584-590): the condition is false for `None` and for 0.  Line breaks and indentation of the
template are left out here and below. -/
def personHtml (url : String) (user : Option Int) (name : Option String) : List Char :=
  match user with
  | none => lit "<Deleted User>"
  | some u =>
    if u = 0 then lit "<Deleted User>"
    else lit "<a href=\"" ++ url.toList ++ lit "/users/" ++ (toString u).toList ++ lit "\">" ++ verbatim name ++ lit "</a>"

/-- One comment (corpus.py:580-593). -/
def commentHtml (c : CommentView) : List Char :=
  lit "<li>" ++ escaped c.text ++ lit "<small>Copyright " ++ verbatim c.license ++ lit " by " ++
    personHtml c.url c.user c.name ++ lit "</small></li>"

/-- `TEMPLATE` (corpus.py:548-599). -/
def postHtml (order : List String → List String) (r : Base × List String × List CommentView) : List Char :=
  lit "<details><summary><em>" ++ escaped r.1.question ++ lit "</em> - " ++ r.1.kind.toList ++ lit " from " ++
    r.1.url.toList ++ lit "</summary><p><small><a href=\"" ++ verbatim r.1.link ++ lit "\">Live Link</a>Copyright " ++
    verbatim r.1.license ++ lit " by " ++ personHtml r.1.url r.1.owner r.1.name ++ lit "</small></p>" ++
    verbatim r.1.body ++ lit "<details><summary>Tags:</summary><ul>" ++
    (order r.2.1).flatMap (fun t => lit "<li>" ++ t.toList) ++
    lit "</ul></details><details><summary>Comments:</summary><ul>" ++ r.2.2.flatMap commentHtml ++
    lit "</ul></details></details>"

/-- `render_docs_html` (corpus.py:670-693). -/
def renderHtml (order : List String → List String) (keys : List Nat) (c : Conn Db) : Conn Db × Except Err (List (Nat × List Char)) :=
  renderDocs "render_docs_html" (postHtml order) keys c

/-- `render_docs_table` (corpus.py:695-717) as `export_document_sample` calls it, on a connection that nothing else uses: the
keys are values, and the result is read to its end. -/
def renderValues (order : List String → List String) (db : Db) (ks : List Val) : Except Err (List (Val × Rendered)) :=
  ks.mapM (fun k =>
    match asKey k with
    | none => .error .indexError
    | some n => (renderedFields db n).map (fun r => (k, tableRow order r)))

end Hyperreal.SX
