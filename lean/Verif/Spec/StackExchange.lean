import Verif.Model.StackExchange
import Verif.Spec.Atomic

/-!
# Specification of the StackExchange corpus
-/

namespace Hyperreal.Spec
open SX

/-- The constraints of the tables (primary keys and unique columns), and that every post's site is known. -/
structure SxWellformed (db : Db) : Prop where
  siteIds : (db.sites.map (·.id)).Nodup
  siteUrls : (db.sites.map (·.url)).Nodup
  docIds : db.posts.Pairwise (fun p q => p.docId < q.docId)
  keys : ∀ p ∈ db.posts, ∀ q ∈ db.posts, p.key ≠ none → p.key = q.key → p = q
  known : ∀ p ∈ db.posts, ∃ s ∈ db.sites, s.id = p.site

/-- The posts the import considers: questions and answers. -/
def considered (d : Dump) : List PostRow := d.posts.rows.filter (fun r => r.typeId = some "1" ∨ r.typeId = some "2")

/-- A complete dump: the files are well-formed and every row has its `Id`. -/
structure Complete (d : Dump) : Prop where
  posts : d.posts.broken = none
  comments : d.comments.broken = none
  users : d.users.broken = none
  postIds : ∀ r ∈ considered d, r.id ≠ none
  commentIds : ∀ r ∈ d.comments.rows, r.id ≠ none
  userIds : ∀ r ∈ d.users.rows, r.id ≠ none

/-- The post carries the data of a row of the dump. -/
def Carries (p : Post) (r : PostRow) : Prop :=
  p.id = r.id ∧ p.owner = r.owner ∧ p.license = r.license ∧ p.parent = r.parent ∧ p.title = r.title ∧
  p.created = r.created ∧ p.body = r.body ∧
  ((r.typeId = some "1" ∧ p.kind = "Question") ∨ (r.typeId = some "2" ∧ p.kind = "Answer"))

/-- No interrupt: neither a statement nor the parsers raise anything but an `Exception`. -/
def SxNoInterrupt (fault : Nat → Option Err) (d : Dump) : Prop :=
  (∀ n e, fault n = some e → e.isException = true) ∧ (∀ e, d.posts.broken = some e → e.isException = true) ∧
  (∀ e, d.comments.broken = some e → e.isException = true) ∧ (∀ e, d.users.broken = some e → e.isException = true)

end Hyperreal.Spec

namespace Hyperreal.Spec
open SX

/-- A complete dump in which ids are not repeated, nor tags within a post. -/
structure Tidy (d : Dump) : Prop extends Complete d where
  postsDistinct : ((considered d).map (·.id)).Nodup
  commentsDistinct : (d.comments.rows.map (·.id)).Nodup
  usersDistinct : (d.users.rows.map (·.id)).Nodup
  tagsDistinct : ∀ r ∈ considered d, (splitTags (r.tags.getD "")).Nodup

/-- The display name of a user according to the dump. -/
def nameIn (d : Dump) (user : Option Int) : String :=
  match user with
  | none => "<Deleted User>"
  | some u =>
    match d.users.rows.find? (fun x => x.id = some u) with
    | none => "<Deleted User>"
    | some x => x.name.getD "<Deleted User>"

/-- The document a row of the dump stands for: an answer has the tags of its question, comments come in the order of the
dump. -/
def docFrom (d : Dump) (url : String) (site : Nat) (r : PostRow) : Doc :=
  { url := url, site := site, id := r.id, title := r.title, body := r.body, tagPost := r.parent.or r.id,
    name := nameIn d r.owner, created := r.created, kind := if r.typeId = some "1" then "Question" else "Answer",
    tags := (considered d).flatMap (fun q => if q.id = r.parent.or r.id then splitTags (q.tags.getD "") else []),
    comments := (d.comments.rows.filter (fun c => c.post = r.id)).map (fun c => (nameIn d c.user, c.text)) }

end Hyperreal.Spec
