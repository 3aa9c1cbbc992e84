import Verif.Model.Hansard

/-!
# What the Hansard example must find and show
-/

namespace Hyperreal.Spec
open Hansard

/-- A day of the calendar. -/
def Calendar (y m d : Nat) : Prop := 1 ≤ y ∧ y ≤ 9999 ∧ 1 ≤ m ∧ m ≤ 12 ∧ 1 ≤ d ∧ d ≤ Datetime.daysIn y m

/-- What is said of a page: the debate it belongs to, what its HTML holds, and its day. -/
structure PageFacts (t : TextOps) (db : Hansard.Db) (p : Page) (debate : Val) (title : Option String) (root : Parsed) (y m d : Nat) : Prop where
  belongs : p.debate = some debate
  debate : (debate, title) ∈ db.debates
  html : ∃ h, p.html = some h ∧ t.parse h = .ok root
  day : ∃ s, p.date = some s ∧ t.fromIso s = .ok ⟨y, m, d⟩
  calendar : Calendar y m d

/-- A database that can be read: page ids are unique, and so are debate ids; every page belongs to a debate, has HTML that can be
parsed and a date. -/
structure HansardReadable (t : TextOps) (db : Hansard.Db) : Prop where
  ids : (db.pages.map (·.id)).Nodup
  debates : (db.debates.map (·.1)).Nodup
  facts : ∀ p ∈ db.pages, ∃ debate title root y m d, PageFacts t db p debate title root y m d

/-- The day written as a text: four digits, two digits and two digits. -/
def WrittenDay (s : String) (y m d : Nat) : Prop :=
  ∃ a b c e f g h i : Nat, a < 10 ∧ b < 10 ∧ c < 10 ∧ e < 10 ∧ f < 10 ∧ g < 10 ∧ h < 10 ∧ i < 10 ∧
    y = 1000 * a + 100 * b + 10 * c + e ∧ m = 10 * f + g ∧ d = 10 * h + i ∧
    s.toList = [a.digitChar, b.digitChar, c.digitChar, e.digitChar, '-', f.digitChar, g.digitChar, '-', h.digitChar, i.digitChar]

/-- The values a page has in each field. -/
def HansardValue (t : TextOps) (p : Page) (debate : Val) (root : Parsed) (y m d : Nat) (field : String) (v : Val) : Prop :=
  (field = "page" ∧ ∃ w ∈ t.tokens (" ".intercalate root.texts), v = .text w) ∨
  (field = "house" ∧ ∃ h, p.house = some h ∧ v = .text h) ∨
  (field = "debate_id" ∧ v = debate) ∨
  (field = "date" ∧ ∃ s, WrittenDay s y m d ∧ v = .text s) ∨
  (field = "month" ∧ ∃ s, WrittenDay s y m 1 ∧ v = .text s) ∨
  (field = "year" ∧ ∃ s, WrittenDay s y 1 1 ∧ v = .text s) ∨
  (field = "parl_no" ∧ ∃ n, p.parl = some n ∧ v = .int n) ∨
  (field = "html_classes" ∧ ∃ e ∈ root.elements, ∃ c ∈ e.2, v = .text c) ∨
  (field = "html_tags" ∧ ∃ e ∈ root.elements, v = .text e.1)

/-- The page as it is shown: those of date, house and title of the debate that are there, over the page's own HTML, with a link. -/
def HansardShown (p : Page) (title : Option String) : String :=
  "\n                <details>\n                    <summary>" ++
    ", ".intercalate ([p.date.getD "", p.house.getD "", title.getD ""].filter (· ≠ "")) ++
    "</summary>\n                    <div>\n                        <a href=\"" ++ p.url.getD "None" ++
    "\">See in context</a>\n                    </div>\n                    <div>" ++ p.html.getD "None" ++
    "</div>\n                </details>\n                "

end Hyperreal.Spec
