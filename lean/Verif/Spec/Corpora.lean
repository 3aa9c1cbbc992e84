import Verif.Model.StackExchange
import Verif.Model.Twittersphere

/-!
# What the bundled corpora must hold so that their documents can be indexed
-/

namespace Hyperreal.Spec

/-- A StackExchange database whose documents can be read: creation dates are dates, bodies can be parsed, and the comments
of its posts have a text. -/
structure SxReadable (t : SX.TextOps) (db : SX.Db) : Prop where
  dates : ∀ p ∈ db.posts, ∃ s d, p.created = some s ∧ t.parseDate s = .ok d ∧ d.valid = true
  bodies : ∀ p ∈ db.posts, ∀ b, p.body = some b → b ≠ "" → ∃ r, t.html b = .ok r
  texts : ∀ p ∈ db.posts, ∀ c ∈ db.comments, c.site = p.site → c.post ≠ none → c.post = p.id → c.text ≠ none

/-- A Twittersphere database whose documents can be read: the views have one row per tweet and user; directly collected tweets
are there with their users; dates are dates, urls can be parsed, and hashtags and mentions are not NULL. -/
structure TwReadable (t : TW.TextOps) (db : TW.Db) : Prop where
  tweetIds : (db.tweets.map (·.id)).Nodup
  profiles : (db.usersAtTime.map (fun u => (u.user, u.retrieved))).Nodup
  latest : (db.usersLatest.map (·.user)).Nodup
  direct : db.direct.Nodup
  stored : ∀ i ∈ db.direct, ∃ tw ∈ db.tweets, tw.id = i
  users : ∀ tw ∈ db.tweets, ∃ u ∈ db.usersLatest, u.user = tw.user
  dates : ∀ tw ∈ db.tweets, ∃ d, t.parseDate tw.created = .ok d ∧ d.valid = true
  urls : ∀ u ∈ db.urls, ∀ s, s ∈ [u.unwound, u.expanded, u.url] → ∀ x, s = some x → ∃ h, t.hostname x = .ok h
  hashtags : ∀ r ∈ db.hashtags, r.2 ≠ none
  mentions : ∀ r ∈ db.mentions, r.2 ≠ none

/-- The database has the tweet and the profile its author had then. -/
def AuthorKnown (db : TW.Db) (tweet : Option Int) : Prop :=
  ∃ tw ∈ db.tweets, tweet = some (tw.id : Int) ∧ ∃ u ∈ db.usersAtTime, u.user = tw.user ∧ u.retrieved = tw.retrieved ∧
    u.name ≠ none

/-- Nothing about the tweet is missing: its author has a name; a retweet's original is known; any other tweet is in a
conversation, quotes a known tweet **and** replies to a known tweet. -/
def NothingMissing (db : TW.Db) (tw : TW.Tweet) : Prop :=
  (∀ u ∈ db.usersLatest, u.user = tw.user → u.name ≠ none) ∧
  ((tw.retweeted ≠ none ∧ AuthorKnown db tw.retweeted) ∨
   (tw.retweeted = none ∧ tw.conversation ≠ none ∧ AuthorKnown db tw.quoted ∧ AuthorKnown db tw.repliedTo))

end Hyperreal.Spec
