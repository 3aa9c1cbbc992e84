import Verif.Model.Twittersphere
import Verif.Model.Html
import Verif.Model.StackExchange

/-!
# Rendered tweets (corpus.py:954-1000)
-/

namespace Hyperreal.TW
open Atomic

/-- The columns of `tweet_latest` and `user_latest` that only the template shows (corpus.py:959-986), by tweet and by user; each view
has one row for each. -/
structure Display where
  likes : Nat → Option Nat
  replies : Nat → Option Nat
  quotes : Nat → Option Nat
  retweets : Nat → Option Nat
  image : Int → Option String
  name : Int → Option String

/-- `{{ x }}` for a text or NULL (corpus.py:959-986). -/
def orNull (x : Option String) : String := x.getD "None"

/-- What the template takes from a document (corpus.py:959-986); `doc["user"]` is the row of `user_latest` (corpus.py:917, 954-957). -/
def tweetView (x : Display) (d : Doc) : Html.Tweet where
  image := orNull (x.image d.tweet.user)
  username := orNull d.username
  name := orNull (x.name d.tweet.user)
  id := toString d.tweet.id
  created := d.tweet.created
  text := d.tweet.text
  likes := orNull ((x.likes d.tweet.id).map toString)
  replies := orNull ((x.replies d.tweet.id).map toString)
  quotes := orNull ((x.quotes d.tweet.id).map toString)
  retweets := orNull ((x.retweets d.tweet.id).map toString)
  retrieved := d.tweet.retrieved

/-- `render_docs_html` (corpus.py:988-998): two savepoints; when a document can not be made, `docs` releases its own
(corpus.py:951-952), the other one stays. -/
def renderHtml (t : TextOps) (x : Display) (keys : List Nat) (c : Conn Db) : Conn Db × Except Err (List (Nat × List Char)) :=
  let c := (c.savepoint "render_docs_html").savepoint "docs"
  match keys.mapM (fun k => (docOf t c.work k).map (fun d => (k, Html.tweetHtml (tweetView x d)))) with
  | .error e =>
    match c.release "docs" with
    | none => (c, .error .operational)
    | some c => (c, .error e)
  | .ok l =>
    match c.release "docs" with
    | none => (c, .error .operational)
    | some c =>
      match c.release "render_docs_html" with
      | none => (c, .error .operational)
      | some c => (c, .ok l)

end Hyperreal.TW
