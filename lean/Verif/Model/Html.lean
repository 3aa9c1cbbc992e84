import Verif.Model.SxRender

/-!
# Documents in web pages

The environment of the server escapes what it shows (server.py:17-19), unless it is `Markup`; the templates of the corpora are
made with `jinja2.Template`, which does not.  Line breaks and indentation of the templates are left out.
-/

namespace Hyperreal.Html

/-- What `render_docs_html` of a corpus gives for a document: text (`PlainTextSqliteCorpus`, corpus.py:219-221), or `Markup`
(corpus.py:681, 991). -/
inductive Doc where
  | text (s : String)
  | markup (s : List Char)

/-- `<li>{{ doc }}</li>` (macros.html:136-138) in the autoescaping environment (server.py:17-19). -/
def item : Doc → List Char
  | .text s => SX.lit "<li>" ++ SX.escaped (some s) ++ SX.lit "</li>"
  | .markup s => SX.lit "<li>" ++ s ++ SX.lit "</li>"

/-- The list of documents in a page (macros.html:135-139). -/
def docList (docs : List Doc) : List Char := SX.lit "<ul class=\"doc-list\">" ++ docs.flatMap item ++ SX.lit "</ul>"

/-- What the template of tweets uses (corpus.py:959-986), as text. -/
structure Tweet where
  image : String
  username : String
  name : String
  id : String
  created : String
  text : String
  likes : String
  replies : String
  quotes : String
  retweets : String
  retrieved : String

/-- `TwittersphereCorpus.TEMPLATE` (corpus.py:959-986), with its unfinished end tag and one space for the white space after it. -/
def tweetHtml (t : Tweet) : List Char :=
  SX.lit "<div><span><img src=" ++ t.image.toList ++ SX.lit "><a href=\"https://twitter.com/" ++ t.username.toList ++ SX.lit "\">@" ++
    t.username.toList ++ SX.lit "</a>" ++ t.name.toList ++ SX.lit " on <a href=\"https://twitter.com/" ++ t.username.toList ++
    SX.lit "/status/" ++ t.id.toList ++ SX.lit "\"><time datetime=\"" ++ t.created.toList ++ SX.lit "\">" ++ t.created.toList ++
    SX.lit "</time></a></span><p>" ++ t.text.toList ++ SX.lit "</p><details><summary>Metadata</summary><dl><dt>Likes</dt><dd>" ++
    t.likes.toList ++ SX.lit "</dd><dt>Replies</dt><dd>" ++ t.replies.toList ++ SX.lit "</dd><dt>Quote Tweets</dt><dd>" ++
    t.quotes.toList ++ SX.lit "</dd><dt>Retweets</dt><dd>" ++ t.retweets.toList ++ SX.lit "</dd><dt>Retrieved at</dt><dd>" ++
    t.retrieved.toList ++ SX.lit "</dd></dl></details></div "

end Hyperreal.Html
