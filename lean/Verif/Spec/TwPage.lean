import Verif.Model.TwRender
import Verif.Spec.SxPage
import Verif.Spec.Fields

/-! # Specification: what a browser reads in a list of tweets (C84) -/

namespace Hyperreal.Spec.Page
open TW

/-- A text as a browser shows it, character references replaced. -/
def displayed (s : String) : String := String.ofList (readText s.toList)

/-- A text that can stand between double quotes and between tags. -/
def Quotable (s : String) : Prop := '"' ∉ s.toList ∧ '<' ∉ s.toList

/-- The data of the tweet has no tags, and no quotes or white space where they would end an attribute. -/
structure Harmless (x : Display) (tw : Tweet) (u : UserRow) : Prop where
  image : ∀ s, x.image tw.user = some s → ∀ c ∈ s.toList, c ≠ '"' ∧ c ≠ '>' ∧ isSpace c = false
  username : ∀ s, u.name = some s → Quotable s
  name : ∀ s, x.name tw.user = some s → '<' ∉ s.toList
  created : Quotable tw.created
  text : '<' ∉ tw.text.toList
  retrieved : '<' ∉ tw.retrieved.toList

/-- A number or `None`. -/
def count (n : Option Nat) : String := orNone (n.map toString)

/-- A tweet in the list: image, name and link of its author, its own link, time, text, and the counts.  The template does not finish its
last tag: the end of the item is read as part of it. -/
def tweetNodes (x : Display) (tw : Tweet) (u : UserRow) : List Node :=
  [⟨"li", [], ""⟩, ⟨"div", [], ""⟩, ⟨"span", [], ""⟩, ⟨"img", [("src", displayed (orNone (x.image tw.user)))], ""⟩,
   ⟨"a", [("href", displayed ("https://twitter.com/" ++ orNone u.name))], displayed ("@" ++ orNone u.name)⟩,
   ⟨"/a", [], displayed (orNone (x.name tw.user) ++ " on ")⟩,
   ⟨"a", [("href", displayed ("https://twitter.com/" ++ orNone u.name ++ "/status/" ++ toString tw.id))], ""⟩,
   ⟨"time", [("datetime", displayed tw.created)], displayed tw.created⟩, ⟨"/time", [], ""⟩, ⟨"/a", [], ""⟩, ⟨"/span", [], ""⟩,
   ⟨"p", [], displayed tw.text⟩, ⟨"/p", [], ""⟩, ⟨"details", [], ""⟩, ⟨"summary", [], "Metadata"⟩, ⟨"/summary", [], ""⟩, ⟨"dl", [], ""⟩,
   ⟨"dt", [], "Likes"⟩, ⟨"/dt", [], ""⟩, ⟨"dd", [], count (x.likes tw.id)⟩, ⟨"/dd", [], ""⟩,
   ⟨"dt", [], "Replies"⟩, ⟨"/dt", [], ""⟩, ⟨"dd", [], count (x.replies tw.id)⟩, ⟨"/dd", [], ""⟩,
   ⟨"dt", [], "Quote Tweets"⟩, ⟨"/dt", [], ""⟩, ⟨"dd", [], count (x.quotes tw.id)⟩, ⟨"/dd", [], ""⟩,
   ⟨"dt", [], "Retweets"⟩, ⟨"/dt", [], ""⟩, ⟨"dd", [], count (x.retweets tw.id)⟩, ⟨"/dd", [], ""⟩,
   ⟨"dt", [], "Retrieved at"⟩, ⟨"/dt", [], ""⟩, ⟨"dd", [], displayed tw.retrieved⟩, ⟨"/dd", [], ""⟩,
   ⟨"/dl", [], ""⟩, ⟨"/details", [], ""⟩, ⟨"/div", [("<", ""), ("li", "")], ""⟩]

end Hyperreal.Spec.Page
