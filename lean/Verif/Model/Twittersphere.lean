import Verif.Model.Indexing
import Verif.Model.Dict
import Verif.Model.Datetime

/-!
# `TwittersphereCorpus`

The database is written by another program (twittersphere) and only read here.  The tables hold the columns that `docs` and
`index` use; ids of tweets, users and conversations are integers, `retrieved_at` a text.  `tweet_latest` and `user_latest` are
views with one row per tweet or user, here taken as tables.
-/

namespace Hyperreal.TW

/-- A row of `tweet_latest` (corpus.py:845-855). -/
structure Tweet where
  id : Nat
  user : Int
  retrieved : String
  created : String
  text : String
  conversation : Option Int := none
  retweeted : Option Int := none
  quoted : Option Int := none
  repliedTo : Option Int := none
  deriving DecidableEq

/-- A row of `tweet_url` joined with `url` (corpus.py:902-911): the three columns of which the first non-NULL is taken. -/
structure UrlRow where
  tweet : Nat
  retrieved : String
  unwound : Option String
  expanded : Option String
  url : Option String
  deriving DecidableEq

/-- A row of `user_at_time`, or (without the time) of `user_latest` (corpus.py:930-945, 954-957). -/
structure UserRow where
  user : Int
  retrieved : String
  name : Option String
  deriving DecidableEq

/-- The database.  `version` is the row of `metadata` (corpus.py:817-833); `collected` holds (tweet, label, directly
collected) of `tweet_at_time` joined with `collection_context` (corpus.py:859-872). -/
structure Db where
  version : Option Nat := none
  tweets : List Tweet := []
  direct : List Nat := []
  collected : List (Nat × String × Bool) := []
  hashtags : List (Nat × Option String) := []
  mentions : List (Nat × Option String) := []
  urls : List UrlRow := []
  usersLatest : List UserRow := []
  usersAtTime : List UserRow := []

/-- The text functions: SQLite's `lower`, Python's `str.lower`, `like 'https://twitter.com/%'`, `urlparse(url).hostname`
(raising for malformed urls), `html.unescape`, `social_media_tokens`, and dates. -/
structure TextOps where
  sqlLower : String → String
  lower : String → String
  internal : String → Bool
  hostname : String → Except Err (Option String)
  tokens : String → List String
  unescape : String → String
  parseDate : String → Except Err Datetime
  iso : Datetime → String

/-- The constructor's checks (corpus.py:814-833). -/
def opens (db : Db) : Except Err Unit :=
  match db.version with
  | none => .error .valueError
  | some v => if v < 15 then .error .valueError else .ok ()

/-- A document as yielded by `docs` (corpus.py:835-952), as far as `index` reads it.  `none` for a user: the key is not in the
dictionary; its `username` may be `None` too. -/
structure Doc where
  tweet : Tweet
  labels : List String
  hashtags : List (Option String)
  mentions : List (Option String)
  urls : List String
  domains : List (Option String)
  username : Option String
  repliedToUser : Option (Option String)
  retweetedUser : Option (Option String)
  quotedUser : Option (Option String)

/-- The user of a related tweet (corpus.py:919-947). -/
def relatedUser (db : Db) (tweet : Option Int) : Option (Option String) :=
  match tweet with
  | none => none
  | some i =>
    match (db.tweets.filter (fun t => (t.id : Int) = i)).head? with
    | none => none
    | some t => ((db.usersAtTime.filter (fun u => u.user = t.user ∧ u.retrieved = t.retrieved)).head?).map (·.name)

/-- `doc["external_urls"]` (corpus.py:899-913): NULL is not `not like`. -/
def externalUrls (t : TextOps) (db : Db) (tw : Tweet) : List String :=
  (db.urls.filter (fun u => u.tweet = tw.id ∧ u.retrieved = tw.retrieved)).filterMap (fun u =>
    match u.unwound.or (u.expanded.or u.url) with
    | none => none
    | some s => if t.internal s then none else some s)

/-- One document (corpus.py:844-949). -/
def docOf (t : TextOps) (db : Db) (key : Nat) : Except Err Doc :=
  match (db.tweets.filter (fun x => x.id = key)).head? with
  | none => .error .indexError
  | some tw =>
    match (externalUrls t db tw).mapM t.hostname with
    | .error e => .error e
    | .ok domains =>
      match (db.usersLatest.filter (fun u => u.user = tw.user)).head? with
      | none => .error .indexError
      | some u =>
        .ok {
          tweet := tw,
          labels := (db.collected.filter (fun r => r.1 = key ∧ r.2.2 = true)).map (·.2.1),
          hashtags := (db.hashtags.filter (fun r => r.1 = key)).map (fun r => r.2.map t.sqlLower),
          mentions := (db.mentions.filter (fun r => r.1 = key)).map (fun r => r.2.map t.sqlLower),
          urls := externalUrls t db tw, domains := domains, username := u.name,
          repliedToUser := relatedUser db tw.repliedTo, retweetedUser := relatedUser db tw.retweeted,
          quotedUser := relatedUser db tw.quoted }

/-- `{h.lower() for h in ...}` (corpus.py:1019-1020): `None` has no `lower` (`AttributeError`, here `TypeError`). -/
def lowered (t : TextOps) (x : Option String) : Except Err (Option Val) :=
  match x with
  | none => .error .typeError
  | some s => .ok (some (.text (t.lower s)))

/-- A list with one entry that may be `None`. -/
def one (x : Option Val) : Values := .seq [x]

/-- corpus.py:1040-1041. -/
def createdFields (t : TextOps) (created : String) : Except Err Features :=
  match t.parseDate created with
  | .error e => .error e
  | .ok d =>
    match roundDatetime d with
    | .error e => .error e
    | .ok r => .ok (r.map (fun p => ("created_" ++ p.1, one (some (.text (t.iso p.2))))))

/-- corpus.py:1014-1032: an original tweet. -/
def originalFields (t : TextOps) (d : Doc) : Except Err Features :=
  match d.hashtags.mapM (lowered t) with
  | .error e => .error e
  | .ok tags =>
    match d.mentions.mapM (lowered t) with
    | .error e => .error e
    | .ok mentions =>
      .ok [
        ("text", .seq ((t.tokens (t.unescape d.tweet.text)).map (fun s => some (.text s)))),
        ("#", .bag tags),
        ("@", .bag mentions),
        ("conversation_id", one (d.tweet.conversation.map .int)),
        ("by", one (d.username.map .text)),
        ("url", .bag (d.urls.map (fun s => some (.text s)))),
        ("domain", .bag (d.domains.map (fun s => s.map .text))),
        ("quoted_tweet_id", one (d.tweet.quoted.map .int)),
        ("quoted_user", one ((d.quotedUser.getD none).map .text)),
        ("replied_to_tweet_id", one (d.tweet.repliedTo.map .int)),
        ("replied_to_user", one ((d.repliedToUser.getD none).map .text)),
        ("collection_label", .bag (d.labels.map (fun s => some (.text s))))]

/-- corpus.py:1034-1038: a retweet. -/
def retweetFields (d : Doc) : Features :=
  [("by", one (d.username.map .text)),
   ("retweeted_tweet_id", one (d.tweet.retweeted.map .int)),
   ("retweeted_user", one ((d.retweetedUser.getD none).map .text))]

/-- `index` (corpus.py:1007-1043). -/
def features (t : TextOps) (d : Doc) : Except Err Features :=
  match createdFields t d.tweet.created with
  | .error e => .error e
  | .ok created =>
    if d.tweet.retweeted = none then
      match originalFields t d with
      | .error e => .error e
      | .ok l => .ok (l ++ created)
    else .ok (retweetFields d ++ created)

/-- The key as an integer: what a `tweet_id = ?` parameter matches. -/
def asKey : Val → Option Nat
  | .int (.ofNat n) => some n
  | _ => none

/-- One document, looked up and indexed. -/
def indexed (t : TextOps) (db : Db) (k : Val) : Except Err Features :=
  match asKey k with
  | none => .error .indexError
  | some n =>
    match docOf t db n with
    | .error e => .error e
    | .ok d => features t d

/-- The corpus object as `Index.index` uses it (corpus.py:835-1043); `keys` in the order of `tweet_id` (corpus.py:999-1005). -/
def corpus (t : TextOps) (db : Db) : Corpus where
  keys := (db.direct.insertionSort (· ≤ ·)).map (fun n : Nat => Val.int n)
  docs := fun ks => ks.mapM (indexed t db)

end Hyperreal.TW
