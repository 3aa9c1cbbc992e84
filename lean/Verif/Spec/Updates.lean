import Verif.Spec.PipelineSx

/-!
# Specification of a corpus that several dumps of one site were added to
-/

namespace Hyperreal.Spec
open SX (Dump PostRow CommentRow UserRow Doc)

/-- What several dumps of a site say together: posts, comments, users, and the tags of posts. -/
structure SiteHistory where
  posts : List PostRow := []
  comments : List CommentRow := []
  users : List UserRow := []
  tags : List (Option Int × String) := []

/-- The tags of the dump, each with the id of its post. -/
def dumpTags (d : Dump) : List (Option Int × String) :=
  (considered d).flatMap (fun r => (SX.splitTags (r.tags.getD "")).map (fun t => (r.id, t)))

/-- One more dump.  A question or answer it has replaces the one with the same id, in its place, or comes last if it is new.
Comments, users and tags it has come last, and replace those with the same id (the same tag of the same post).  Nothing else goes. -/
def SiteHistory.add (m : SiteHistory) (d : Dump) : SiteHistory where
  posts := m.posts.map (fun p => ((considered d).find? (fun r => r.id = p.id)).getD p) ++
    (considered d).filter (fun r => r.id ∉ m.posts.map (·.id))
  comments := m.comments.filter (fun c => c.id ∉ d.comments.rows.map (·.id)) ++ d.comments.rows
  users := m.users.filter (fun u => u.id ∉ d.users.rows.map (·.id)) ++ d.users.rows
  tags := m.tags.filter (fun x => x ∉ dumpTags d) ++ dumpTags d

/-- The name of a user among some. -/
def nameAmong (users : List UserRow) (user : Option Int) : String :=
  match user with
  | none => "<Deleted User>"
  | some u => ((users.find? (fun x => x.id = some u)).bind (·.name)).getD "<Deleted User>"

/-- The document of a post. -/
def SiteHistory.doc (m : SiteHistory) (url : String) (r : PostRow) : Doc :=
  { url := url, site := 1, id := r.id, title := r.title, body := r.body, tagPost := r.parent.or r.id,
    name := nameAmong m.users r.owner, created := r.created, kind := if r.typeId = some "1" then "Question" else "Answer",
    tags := (m.tags.filter (fun x => x.1 = r.parent.or r.id)).map (·.2),
    comments := (m.comments.filter (fun c => c.post = r.id)).map (fun c => (nameAmong m.users c.user, c.text)) }

/-- The dump has everything that was there. -/
structure Includes (d : Dump) (m : SiteHistory) : Prop where
  posts : ∀ p ∈ m.posts, p.id ∈ (considered d).map (·.id)
  comments : ∀ c ∈ m.comments, c.id ∈ d.comments.rows.map (·.id)
  users : ∀ u ∈ m.users, u.id ∈ d.users.rows.map (·.id)
  tags : ∀ x ∈ m.tags, x ∈ dumpTags d

/-- The document says what the row says, and has the tags and comments that the dump has for it. -/
structure SaysRow (d : Dump) (url : String) (r : PostRow) (doc : Doc) : Prop where
  row : doc.url = url ∧ doc.id = r.id ∧ doc.title = r.title ∧ doc.body = r.body ∧ doc.created = r.created ∧
    doc.kind = (if r.typeId = some "1" then "Question" else "Answer")
  tags : ∀ t ∈ (docFrom d url 1 r).tags, t ∈ doc.tags
  comments : ∀ c ∈ d.comments.rows, c.post = r.id → ∃ name, (name, c.text) ∈ doc.comments

end Hyperreal.Spec
