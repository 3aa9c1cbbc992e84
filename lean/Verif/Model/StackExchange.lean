import Verif.Model.Indexing
import Verif.Model.Dict
import Verif.Model.Datetime

/-!
# `StackExchangeCorpus`

The tables hold the columns that `docs`, `render_docs_html` and `render_docs_table` read; `AcceptedAnswerId`,
`FavoriteCount`, `Score`, `ViewCount`, `LastActivityDate`, `CommentCount` and the profile columns of `User` are written only
and left out.  Attribute values of integer columns are taken as already converted by SQLite's column affinity.  Tables that
do not exist yet are modelled as empty ones.  Foreign keys are not enforced (SQLite's default).  Rows of `comment`, `User` and
`PostTag` are in the order of their rowids, rows of `Post` in the order of `doc_id`.
-/

namespace Hyperreal.SX
open Atomic

/-! ## Tables -/

/-- A row of `Site` (corpus.py:269-272). -/
structure Site where
  id : Nat
  url : String
  deriving DecidableEq

/-- A row of `Post` (corpus.py:274-295). -/
structure Post where
  docId : Nat
  site : Nat
  id : Option Int
  owner : Option Int
  license : Option String
  parent : Option Int
  title : Option String
  created : Option String
  body : Option String
  kind : String
  deriving DecidableEq

/-- A row of `comment` (corpus.py:297-309). -/
structure Comment where
  site : Nat
  id : Option Int
  post : Option Int
  user : Option Int
  text : Option String
  license : Option String
  deriving DecidableEq

/-- A row of `User` (corpus.py:313-329). -/
structure User where
  site : Nat
  id : Option Int
  name : Option String
  deriving DecidableEq

/-- A row of `PostTag` (corpus.py:331-337). -/
structure PostTag where
  site : Nat
  post : Int
  tag : String
  deriving DecidableEq

/-- The database of the corpus (corpus.py:267-340). -/
structure Db where
  sites : List Site := []
  posts : List Post := []
  comments : List Comment := []
  users : List User := []
  tags : List PostTag := []
  deriving DecidableEq

/-- `replace into` a table whose uniqueness constraint is `key`; a key with a NULL never conflicts.  The new row gets the
greatest rowid. -/
def replaceRow {α K : Type} [DecidableEq K] (key : α → Option K) (l : List α) (x : α) : List α :=
  (match key x with
   | none => l
   | some k => l.filter (fun y => key y ≠ some k)) ++ [x]

/-- The primary key (site_id, Id) of `comment` (corpus.py:306). -/
def Comment.key (c : Comment) : Option (Nat × Int) := c.id.map (fun i => (c.site, i))

/-- The primary key (site_id, Id) of `User` (corpus.py:328). -/
def User.key (u : User) : Option (Nat × Int) := u.id.map (fun i => (u.site, i))

/-- The primary key of `PostTag`: the whole row (corpus.py:335). -/
def PostTag.key (t : PostTag) : Option PostTag := some t

/-- The natural key unique(site_id, Id) of `Post` (corpus.py:293). -/
def Post.key (p : Post) : Option (Nat × Int) := p.id.map (fun i => (p.site, i))

/-! ## Dumps -/

/-- The attributes of a row of Posts.xml (corpus.py:367-394). -/
structure PostRow where
  typeId : Option String
  id : Option Int
  owner : Option Int := none
  license : Option String := none
  parent : Option Int := none
  title : Option String := none
  created : Option String := none
  body : Option String := none
  tags : Option String := none
  deriving DecidableEq

/-- The attributes of a row of Comments.xml (corpus.py:411-428). -/
structure CommentRow where
  id : Option Int := none
  post : Option Int := none
  user : Option Int := none
  text : Option String := none
  license : Option String := none
  deriving DecidableEq

/-- The attributes of a row of Users.xml (corpus.py:435-458). -/
structure UserRow where
  id : Option Int := none
  name : Option String := none
  deriving DecidableEq

/-- One XML file: its row elements, and the exception the parser raises after them, if any.  When the file is well-formed
`iterparse` ends with the `end` event of the root element, which has no attributes. -/
structure XmlFile (α : Type) where
  rows : List α
  broken : Option Err := none

/-- A dump: the three files (corpus.py:252). -/
structure Dump where
  posts : XmlFile PostRow
  comments : XmlFile CommentRow
  users : XmlFile UserRow

/-- `post_types` (corpus.py:358); `none` when the element is skipped (corpus.py:363-365). -/
def PostRow.kind (r : PostRow) : Option String :=
  if r.typeId = some "1" then some "Question" else if r.typeId = some "2" then some "Answer" else none

/-- `tag_splitter.split(...)`, without the empty strings (corpus.py:346, 398-399).  `<` and `>` each separate. -/
def splitTags (s : String) : List String :=
  ((s.toList.splitOnP (fun c => c == '<' || c == '>')).filter (· ≠ [])).map String.ofList

/-! ## Statements -/

/-- `insert or ignore into Site(site_url) values(?)` (corpus.py:348-350). -/
def putSite (url : String) (db : Db) : Db :=
  if db.sites.any (fun s => s.url = url) then db
  else { db with sites := db.sites ++ [⟨(db.sites.map (·.id)).foldr max 0 + 1, url⟩] }

/-- `select site_id from Site where site_url = ?`, `[0]` (corpus.py:351-355). -/
def siteId (url : String) (db : Db) : Except Err Nat :=
  match (db.sites.filter (fun s => s.url = url)).head? with
  | none => .error .indexError
  | some s => .ok s.id

/-- The sub-query for the `doc_id` (corpus.py:375): the one of the post with the same natural key, else NULL. -/
def oldDocId (site : Nat) (id : Option Int) (posts : List Post) : Option Nat :=
  match id with
  | none => none
  | some i => ((posts.filter (fun p => p.key = some (site, i))).head?).map (·.docId)

/-- Insert into the rows ordered by `doc_id`. -/
def insertPost (x : Post) : List Post → List Post
  | [] => [x]
  | p :: l => if x.docId < p.docId then x :: p :: l else p :: insertPost x l

/-- `replace into post values (...)` (corpus.py:372-394): rows with the same `doc_id` or the same natural key go; a NULL
`doc_id` becomes one more than the greatest. -/
def replacePost (site : Nat) (kind : String) (r : PostRow) (posts : List Post) : List Post :=
  let d := (oldDocId site r.id posts).getD ((posts.map (·.docId)).foldr max 0 + 1)
  let x : Post := ⟨d, site, r.id, r.owner, r.license, r.parent, r.title, r.created, r.body, kind⟩
  let conflicts := fun p : Post => p.docId = x.docId ∨ (p.key ≠ none ∧ p.key = x.key)
  insertPost x (posts.filter (fun p => ¬ conflicts p))

/-- The statement on the database (corpus.py:372-394). -/
def putPost (site : Nat) (kind : String) (r : PostRow) (db : Db) : Db :=
  { db with posts := replacePost site kind r db.posts }

/-- `replace into PostTag values(?, ?, ?)` (corpus.py:402). -/
def putTag (t : PostTag) (db : Db) : Db := { db with tags := replaceRow PostTag.key db.tags t }

/-- `replace into comment values (...)` (corpus.py:415-429). -/
def putComment (site : Nat) (r : CommentRow) (db : Db) : Db :=
  { db with comments := replaceRow Comment.key db.comments ⟨site, r.id, r.post, r.user, r.text, r.license⟩ }

/-- `replace into user values (...)` (corpus.py:439-459). -/
def putUser (site : Nat) (r : UserRow) (db : Db) : Db :=
  { db with users := replaceRow User.key db.users ⟨site, r.id, r.name⟩ }

/-- What happens in the body, in order: a statement that is executed, or an exception. -/
inductive Act where
  | sql (f : Db → Db)
  | raise (e : Err)

/-- One event of Posts.xml (corpus.py:360-406).  `elem.attrib["Id"]` is evaluated for each tag, so that a post with tags but
without `Id` raises `KeyError`. -/
def postActs (site : Nat) (r : PostRow) : List Act :=
  match r.kind with
  | none => []
  | some kind =>
    .sql (putPost site kind r) ::
      (splitTags (r.tags.getD "")).map (fun t =>
        match r.id with
        | none => .raise .keyError
        | some i => .sql (putTag ⟨site, i, t⟩))

/-- The end of a file: the parser's exception, or the root element's event. -/
def endActs {α : Type} (f : XmlFile α) (root : List Act) : List Act :=
  match f.broken with
  | some e => [.raise e]
  | none => root

/-- The body after the site id is known (corpus.py:357-460).  The root elements of Comments.xml and Users.xml are inserted
like rows without attributes; the one of Posts.xml has no `PostTypeId` and is skipped. -/
def bodyActs (site : Nat) (d : Dump) : List Act :=
  d.posts.rows.flatMap (postActs site) ++ endActs d.posts [] ++
  d.comments.rows.map (fun r => .sql (putComment site r)) ++ endActs d.comments [.sql (putComment site {})] ++
  d.users.rows.map (fun r => .sql (putUser site r)) ++ endActs d.users [.sql (putUser site {})]

/-- Execute until something raises; `fault n` lets the `n`-th statement fail. -/
def runActs (fault : Nat → Option Err) : Nat → List Act → Conn Db → Conn Db × Option Err
  | _, [], c => (c, none)
  | _, .raise e :: _, c => (c, some e)
  | n, .sql f :: rest, c =>
    match fault n with
    | some e => (c.log, some e)
    | none => runActs fault (n + 1) rest (c.exec (fun db => .ok (f db, ()))).1

/-- corpus.py:342-462: the body of the `try`. -/
def importBody (fault : Nat → Option Err) (d : Dump) (url : String) (c : Conn Db) : Conn Db × Option Err :=
  match fault 2 with
  | some e => (c, some e)
  | none =>
    match c.begin with
    | none => (c, some .operational)
    | some c =>
      match fault 3 with
      | some e => (c.log, some e)
      | none =>
        let c := (c.exec (fun db => .ok (putSite url db, ()))).1
        match fault 4 with
        | some e => (c.log, some e)
        | none =>
          match siteId url c.work with
          | .error e => (c, some e)
          | .ok site =>
            match runActs fault 6 (bodyActs site d) c with
            | (c, some e) => (c, some e)
            | (c, none) =>
              match fault 5 with
              | some e => (c, some e)
              | none =>
                match c.commit with
                | none => (c, some .operational)
                | some c => (c, none)

/-- `add_site_data` (corpus.py:252-466).  `executescript` commits an open transaction first; the `create table if not exists`
statements change nothing in this model.  An `Exception` is re-raised after `rollback`; an interrupt leaves the
transaction open. -/
def addSiteData (fault : Nat → Option Err) (d : Dump) (url : String) (c : Conn Db) : Conn Db × Except Err Unit :=
  match fault 0 with
  | some e => (c, .error e)
  | none =>
    let c := if c.inTxn then c.commit.getD c else c
    match fault 1 with
    | some e => (c, .error e)
    | none =>
      match importBody fault d url c with
      | (c, none) => (c, .ok ())
      | (c, some e) =>
        if e.isException then
          match c.rollback with
          | none => (c, .error .operational)
          | some c => (c, .error e)
        else (c, .error e)

/-! ## Reading -/

/-- A document as yielded by `docs` (corpus.py:478-541).  `tags` is a Python set, here its members in the order of the rows. -/
structure Doc where
  url : String
  site : Nat
  id : Option Int
  title : Option String
  body : Option String
  tagPost : Option Int
  name : String
  created : Option String
  kind : String
  tags : List String
  comments : List (String × Option String)
  deriving DecidableEq

/-- The scalar sub-query for a user's display name with its default (corpus.py:490-499, 525-534). -/
def displayName (db : Db) (site : Nat) (user : Option Int) : String :=
  match user with
  | none => "<Deleted User>"
  | some u =>
    match (db.users.filter (fun x => x.key = some (site, u))).head? with
    | none => "<Deleted User>"
    | some x => x.name.getD "<Deleted User>"

/-- `coalesce(ParentId, Id)` (corpus.py:489). -/
def Post.tagPost (p : Post) : Option Int := p.parent.or p.id

/-- One document (corpus.py:478-541); `[0]` raises `IndexError` when there is no such post. -/
def docOf (db : Db) (key : Nat) : Except Err Doc :=
  match (db.posts.filter (fun p => p.docId = key)).head? with
  | none => .error .indexError
  | some p =>
    match (db.sites.filter (fun s => s.id = p.site)).head? with
    | none => .error .indexError
    | some s =>
      .ok {
        url := s.url, site := p.site, id := p.id, title := p.title, body := p.body, tagPost := p.tagPost,
        name := displayName db p.site p.owner, created := p.created, kind := p.kind,
        tags := (db.tags.filter (fun t => t.site = p.site ∧ some t.post = p.tagPost)).map (·.tag),
        comments := (db.comments.filter (fun c => c.site = p.site ∧ c.post ≠ none ∧ c.post = p.id)).map
          (fun c => (displayName db c.site c.user, c.text)) }

/-- `keys` (corpus.py:719-720): in some order (`scan`) that depends on the rows only; SQLite may scan the table or the
index of the natural key. -/
def keys (scan : List Post → List Post) (db : Db) : List Nat := (scan db.posts).map (·.docId)

/-- `docs` (corpus.py:468-546), until the first exception. -/
def yields (db : Db) : List Nat → List (Nat × Doc) × Option Err
  | [] => ([], none)
  | k :: ks =>
    match docOf db k with
    | .error e => ([], some e)
    | .ok d => ((k, d) :: (yields db ks).1, (yields db ks).2)

/-- `docs(doc_keys)` (corpus.py:468-546). -/
def docs (scan : List Post → List Post) (db : Db) (docKeys : Option (List Nat)) : List (Nat × Doc) × Option Err :=
  yields db (docKeys.getD (keys scan db))

/-! ## Indexing -/

/-- The text functions used by `index`, which are not modelled: `utilities.tokens`, the HTML body split into the code blocks
and the rest, parsing and formatting of dates. -/
structure TextOps where
  tokens : String → List String
  html : String → Except Err (List String × String)
  parseDate : String → Except Err Datetime
  iso : Datetime → String

/-- A list of tokens as values. -/
def toks (l : List String) : List (Option Val) := l.map (fun t => some (Val.text t))

/-- corpus.py:723-739: the code blocks and the post's text. -/
def bodyParts (t : TextOps) (body : Option String) : Except Err (List String × String) :=
  match body with
  | none => .ok ([], "")
  | some b => if b = "" then .ok ([], "") else t.html b

/-- `utilities.tokens(c["Text"])` (corpus.py:752): `None` has no `translate` (`AttributeError`, here `TypeError`). -/
def commentTokens (t : TextOps) (c : String × Option String) : Except Err (List String) :=
  match c.2 with
  | none => .error .typeError
  | some s => .ok (t.tokens s)

/-- corpus.py:758-764; the dictionary keys are distinct, so the fields are appended in the order of the dictionary
`round_datetime` returns, without minute and hour. -/
def createdFields (t : TextOps) (created : Option String) : Except Err Features :=
  match created with
  | none => .error .typeError
  | some s =>
    match t.parseDate s with
    | .error e => .error e
    | .ok d =>
      match roundDatetime d with
      | .error e => .error e
      | .ok r => .ok ((r.filter (fun p => p.1 ≠ "minute" ∧ p.1 ≠ "hour")).map
          (fun p => ("created_" ++ p.1, .bag [some (.text (t.iso p.2))])))

/-- `index` (corpus.py:722-766). -/
def features (t : TextOps) (d : Doc) : Except Err Features := do
  let parts ← bodyParts t d.body
  let comments ← d.comments.mapM (commentTokens t)
  let created ← createdFields t d.created
  return [
    ("UserPosting", .bag [some (.text d.name)]),
    ("Post", .seq (toks (t.tokens (d.title.getD "") ++ t.tokens parts.2))),
    ("CodeBlock", .seq (toks ((parts.1.filter (· ≠ "")).flatMap t.tokens))),
    ("Tag", .bag (toks d.tags)),
    ("UserCommenting", .bag (toks (d.comments.map (·.1)))),
    ("Comment", .seq (toks comments.flatten)),
    ("Site", .bag [some (.text d.url)]),
    ("PostType", .bag [some (.text d.kind)])] ++ created

end Hyperreal.SX

namespace Hyperreal.SX

/-- The key as an integer: what a `doc_id = ?` parameter matches. -/
def asKey : Val → Option Nat
  | .int (.ofNat n) => some n
  | _ => none

/-- One document, looked up and indexed (corpus.py:478-541, 722-766). -/
def indexed (t : TextOps) (db : Db) (k : Val) : Except Err Features :=
  match asKey k with
  | none => .error .indexError
  | some n =>
    match docOf db n with
    | .error e => .error e
    | .ok d => features t d

/-- The corpus object as `Index.index` uses it (corpus.py:468-546, 719-766). -/
def corpus (t : TextOps) (scan : List Post → List Post) (db : Db) : Corpus where
  keys := (keys scan db).map (fun n : Nat => Val.int n)
  docs := fun ks => ks.mapM (indexed t db)

end Hyperreal.SX
