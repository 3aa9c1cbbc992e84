import Verif.Spec.Corpora
import Verif.Spec.StackExchange
import Verif.Spec.Datetime

/-!
# Under which (field, value) a document of a bundled corpus must be found

Stated for the rows a user put into the corpus, not for the dictionary that `index` builds.
-/

namespace Hyperreal.Spec

/-! ## StackExchange -/

/-- The name shown for a user id of a site: the name of the user's row, if there is one with a name. -/
def SxNamed (db : SX.Db) (site : Nat) (user : Option Int) (name : String) : Prop :=
  (∃ u ∈ db.users, u.site = site ∧ u.id ≠ none ∧ u.id = user ∧ u.name = some name) ∨
  (name = "<Deleted User>" ∧ ¬ ∃ u ∈ db.users, u.site = site ∧ u.id ≠ none ∧ u.id = user ∧ u.name ≠ none)

/-- The document is the one of the post: its columns, the url of its site, its author's name, the tags of the question and
the comments on the post with their authors. -/
structure SxDocOf (db : SX.Db) (p : SX.Post) (doc : SX.Doc) : Prop where
  site : ∃ s ∈ db.sites, s.id = p.site ∧ s.url = doc.url
  columns : doc.title = p.title ∧ doc.body = p.body ∧ doc.created = p.created ∧ doc.kind = p.kind
  poster : SxNamed db p.site p.owner doc.name
  tags : ∀ w, w ∈ doc.tags ↔ ∃ g ∈ db.tags, g.site = p.site ∧ g.tag = w ∧
    (p.parent = some g.post ∨ (p.parent = none ∧ p.id = some g.post))
  comments : ∀ n s, (n, s) ∈ doc.comments ↔ ∃ c ∈ db.comments, c.site = p.site ∧ c.post ≠ none ∧ c.post = p.id ∧
    c.text = s ∧ SxNamed db p.site c.user n

/-- The pairs (field, value) of a document. -/
inductive SxShows (t : SX.TextOps) (doc : SX.Doc) : String → String → Prop
  | poster : SxShows t doc "UserPosting" doc.name
  | title (s w : String) : doc.title = some s → w ∈ t.tokens s → SxShows t doc "Post" w
  | body (b : String) (codes : List String) (text w : String) : doc.body = some b → b ≠ "" → t.html b = .ok (codes, text) →
      w ∈ t.tokens text → SxShows t doc "Post" w
  | code (b : String) (codes : List String) (text x w : String) : doc.body = some b → b ≠ "" → t.html b = .ok (codes, text) →
      x ∈ codes → w ∈ t.tokens x → SxShows t doc "CodeBlock" w
  | tag (w : String) : w ∈ doc.tags → SxShows t doc "Tag" w
  | commenter (n : String) (s : Option String) : (n, s) ∈ doc.comments → SxShows t doc "UserCommenting" n
  | comment (n s w : String) : (n, some s) ∈ doc.comments → w ∈ t.tokens s → SxShows t doc "Comment" w
  | site : SxShows t doc "Site" doc.url
  | kind : SxShows t doc "PostType" doc.kind
  | created (s g : String) (n : Nat) (d r : Datetime) : doc.created = some s → t.parseDate s = .ok d →
      (g, n) ∈ [("year", 1), ("month", 2), ("day", 3)] → Truncates n d r → SxShows t doc ("created_" ++ g) (t.iso r)

/-- A dump whose documents can be read: creation dates are dates, bodies can be parsed, and comments have a text. -/
structure DumpReadable (t : SX.TextOps) (d : SX.Dump) : Prop where
  dates : ∀ r ∈ considered d, ∃ s x, r.created = some s ∧ t.parseDate s = .ok x ∧ x.valid = true
  bodies : ∀ r ∈ considered d, ∀ b, r.body = some b → b ≠ "" → ∃ x, t.html b = .ok x
  texts : ∀ c ∈ d.comments.rows, c.text ≠ none

/-! ## Twittersphere -/

/-- The tweet `i` is stored, and its author had the name then. -/
def TwAuthor (db : TW.Db) (i : Option Int) (name : String) : Prop :=
  ∃ x ∈ db.tweets, i = some (x.id : Int) ∧ ∃ u ∈ db.usersAtTime, u.user = x.user ∧ u.retrieved = x.retrieved ∧ u.name = some name

/-- A link of the tweet: of the row's three columns the first that is not NULL, if it does not lead to Twitter. -/
def TwLink (t : TW.TextOps) (db : TW.Db) (x : TW.Tweet) (s : String) : Prop :=
  ∃ u ∈ db.urls, u.tweet = x.id ∧ u.retrieved = x.retrieved ∧ t.internal s = false ∧
    (u.unwound = some s ∨ (u.unwound = none ∧ u.expanded = some s) ∨ (u.unwound = none ∧ u.expanded = none ∧ u.url = some s))

/-- The pairs (field, value) of a tweet; of a retweet only the author, the retweeted tweet and the dates. -/
inductive TwShows (t : TW.TextOps) (db : TW.Db) (x : TW.Tweet) : String → Val → Prop
  | text (w : String) : x.retweeted = none → w ∈ t.tokens (t.unescape x.text) → TwShows t db x "text" (.text w)
  | hashtag (h : String) : x.retweeted = none → (x.id, some h) ∈ db.hashtags → TwShows t db x "#" (.text (t.lower (t.sqlLower h)))
  | mention (h : String) : x.retweeted = none → (x.id, some h) ∈ db.mentions → TwShows t db x "@" (.text (t.lower (t.sqlLower h)))
  | conversation (i : Int) : x.retweeted = none → x.conversation = some i → TwShows t db x "conversation_id" (.int i)
  | author (u : TW.UserRow) (n : String) : u ∈ db.usersLatest → u.user = x.user → u.name = some n →
      TwShows t db x "by" (.text n)
  | url (s : String) : x.retweeted = none → TwLink t db x s → TwShows t db x "url" (.text s)
  | domain (s h : String) : x.retweeted = none → TwLink t db x s → t.hostname s = .ok (some h) → TwShows t db x "domain" (.text h)
  | quoted (i : Int) : x.retweeted = none → x.quoted = some i → TwShows t db x "quoted_tweet_id" (.int i)
  | quotedUser (n : String) : x.retweeted = none → TwAuthor db x.quoted n → TwShows t db x "quoted_user" (.text n)
  | replied (i : Int) : x.retweeted = none → x.repliedTo = some i → TwShows t db x "replied_to_tweet_id" (.int i)
  | repliedUser (n : String) : x.retweeted = none → TwAuthor db x.repliedTo n → TwShows t db x "replied_to_user" (.text n)
  | label (l : String) : x.retweeted = none → (x.id, l, true) ∈ db.collected → TwShows t db x "collection_label" (.text l)
  | retweeted (i : Int) : x.retweeted = some i → TwShows t db x "retweeted_tweet_id" (.int i)
  | retweetedUser (n : String) : x.retweeted ≠ none → TwAuthor db x.retweeted n → TwShows t db x "retweeted_user" (.text n)
  | created (g : String) (n : Nat) (d r : Datetime) : t.parseDate x.created = .ok d → (g, n) ∈ granularities →
      Truncates n d r → TwShows t db x ("created_" ++ g) (.text (t.iso r))

end Hyperreal.Spec
