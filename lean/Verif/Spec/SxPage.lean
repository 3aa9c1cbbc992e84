import Verif.Spec.Pages
import Verif.Spec.SxRender

/-! # Specification: what a browser reads in the page of a StackExchange post (C63) -/

namespace Hyperreal.Spec.Page
open SX

/-- A text without the characters that start a tag or a character reference. -/
def Unmarked (s : String) : Prop := '<' ∉ s.toList ∧ '&' ∉ s.toList

/-- The names, licenses and tags of a post and the address of its site are such texts, and the body leaves no tag open. -/
structure Unmarking (d : Dump) (url : String) (r : PostRow) : Prop where
  url : Unmarked url ∧ '"' ∉ url.toList
  name : ∀ n, userIn d r.owner = some n → Unmarked n
  license : ∀ l, r.license = some l → Unmarked l
  body : ∀ b, r.body = some b → Finished b.toList
  tags : ∀ t ∈ tagsIn d (r.parent.or r.id), Unmarked t
  comments : ∀ c ∈ d.comments.rows, c.post = r.id →
    (∀ n, userIn d c.user = some n → Unmarked n) ∧ ∀ l, c.license = some l → Unmarked l

/-- A text or `None`. -/
def orNone (x : Option String) : String := x.getD "None"

/-- The link to a person; without a person there is an unknown tag. -/
def personNodes (url : String) (user : Option Int) (name : Option String) : List Node :=
  if user = none ∨ user = some 0 then [⟨"Deleted", [("User", "")], ""⟩]
  else [⟨"a", [("href", url ++ "/users/" ++ toString (user.getD 0))], orNone name⟩, ⟨"/a", [], ""⟩]

/-- A comment: its text, license and author. -/
def commentNodes (d : Dump) (url : String) (c : CommentRow) : List Node :=
  [⟨"li", [], orNone c.text⟩, ⟨"small", [], "Copyright " ++ orNone c.license ++ " by "⟩] ++
    personNodes url c.user (userIn d c.user) ++ [⟨"/small", [], ""⟩, ⟨"/li", [], ""⟩]

/-- The page of a post of a dump: the title of the question, kind and site, a link to the post, license and author, the body as
it is, the tags, and the comments. -/
def postNodes (d : Dump) (url : String) (r : PostRow) (tags : List String) : List Node :=
  let body := nodes (orNone r.body).toList
  [⟨"", [], ""⟩, ⟨"details", [], ""⟩, ⟨"summary", [], ""⟩, ⟨"em", [], orNone (questionIn d r)⟩,
   ⟨"/em", [], " - " ++ (if r.typeId = some "1" then "Question" else "Answer") ++ " from " ++ url⟩, ⟨"/summary", [], ""⟩,
   ⟨"p", [], ""⟩, ⟨"small", [], ""⟩,
   ⟨"a", [("href", orNone (r.id.map (fun i => url ++ "/questions/" ++ toString i)))], "Live Link"⟩,
   ⟨"/a", [], "Copyright " ++ orNone r.license ++ " by "⟩] ++
  personNodes url r.owner (userIn d r.owner) ++
  [⟨"/small", [], ""⟩, ⟨"/p", [], (body.headD ⟨"", [], ""⟩).text⟩] ++ body.tail ++
  [⟨"details", [], ""⟩, ⟨"summary", [], "Tags:"⟩, ⟨"/summary", [], ""⟩, ⟨"ul", [], ""⟩] ++
  tags.map (fun t => ⟨"li", [], t⟩) ++
  [⟨"/ul", [], ""⟩, ⟨"/details", [], ""⟩, ⟨"details", [], ""⟩, ⟨"summary", [], "Comments:"⟩, ⟨"/summary", [], ""⟩, ⟨"ul", [], ""⟩] ++
  (d.comments.rows.filter (fun c => c.post = r.id)).flatMap (commentNodes d url) ++
  [⟨"/ul", [], ""⟩, ⟨"/details", [], ""⟩, ⟨"/details", [], ""⟩]

end Hyperreal.Spec.Page
