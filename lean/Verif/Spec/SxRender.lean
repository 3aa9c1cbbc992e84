import Verif.Model.SxRender
import Verif.Spec.StackExchange

/-!
# Specification of rendered StackExchange posts

A reader for the JSON in the column of comments, what a table row has to show for a post of a dump, and what an HTML parser
takes for markup.
-/

namespace Hyperreal.Spec
open SX

/-! ## JSON -/

/-- The value of a hexadecimal digit. -/
def unhex (c : Char) : Option Nat :=
  if '0' ≤ c ∧ c ≤ '9' then some (c.toNat - 48)
  else if 'a' ≤ c ∧ c ≤ 'f' then some (c.toNat - 87)
  else if 'A' ≤ c ∧ c ≤ 'F' then some (c.toNat - 55)
  else none

/-- The character of a two-character escape, as a code unit. -/
def unescapeUnit (c : Char) : Option Nat :=
  if c = '"' then some 34 else if c = '\\' then some 92 else if c = '/' then some 47
  else if c = 'n' then some 10 else if c = 'r' then some 13 else if c = 't' then some 9
  else if c = 'f' then some 12 else if c = 'b' then some 8 else none

/-- The code units (UTF-16) of a character. -/
def utf16 (c : Char) : List Nat :=
  if c.toNat < 65536 then [c.toNat] else [55296 + (c.toNat - 65536) / 1024, 56320 + (c.toNat - 65536) % 1024]

/-- A JSON string after its opening quote: its code units, and what follows the closing quote.  Control characters have to be
escaped. -/
def jsonUnits : List Char → Option (List Nat × List Char)
  | [] => none
  | c :: rest =>
    if c = '"' then some ([], rest)
    else if c = '\\' then
      match rest with
      | [] => none
      | e :: rest =>
        if e = 'u' then
          match rest with
          | a :: b :: c :: d :: rest =>
            match unhex a, unhex b, unhex c, unhex d with
            | some a, some b, some c, some d => (jsonUnits rest).map (fun r => ((a * 4096 + b * 256 + c * 16 + d) :: r.1, r.2))
            | _, _, _, _ => none
          | _ => none
        else
          match unescapeUnit e with
          | some n => (jsonUnits rest).map (fun r => (n :: r.1, r.2))
          | none => none
    else if c.toNat < 32 then none
    else (jsonUnits rest).map (fun r => (utf16 c ++ r.1, r.2))

/-- The characters of a sequence of code units; surrogates count in pairs only. -/
def fromUtf16 : List Nat → Option (List Char)
  | [] => some []
  | n :: rest =>
    if 55296 ≤ n ∧ n < 56320 then
      match rest with
      | [] => none
      | m :: rest =>
        if 56320 ≤ m ∧ m < 57344 then (fromUtf16 rest).map (Char.ofNat (65536 + (n - 55296) * 1024 + (m - 56320)) :: ·)
        else none
    else (fromUtf16 rest).map (Char.ofNat n :: ·)

/-- Skip the given characters. -/
def expect (lit l : List Char) : Option (List Char) := if lit.isPrefixOf l then some (l.drop lit.length) else none

/-- A string or `null`, and the rest. -/
def jsonText (l : List Char) : Option (Option String × List Char) :=
  match expect "null".toList l with
  | some rest => some (none, rest)
  | none =>
    match expect ['"'] l with
    | none => none
    | some l =>
      match jsonUnits l with
      | none => none
      | some r => (fromUtf16 r.1).map (fun s => (some (String.ofList s), r.2))

/-- A comment as shown in a table: author, text, license. -/
abbrev Shown := Option String × Option String × Option String

/-- An object with the three members. -/
def jsonObject (l : List Char) : Option (Shown × List Char) := do
  let l ← expect "{\"DisplayName\": ".toList l
  let a ← jsonText l
  let l ← expect ", \"Text\": ".toList a.2
  let b ← jsonText l
  let l ← expect ", \"ContentLicense\": ".toList b.2
  let c ← jsonText l
  let l ← expect ['}'] c.2
  return ((a.1, b.1, c.1), l)

/-- The objects of a list, up to the closing bracket, which has to be the end; `n` bounds their number. -/
def jsonObjects : Nat → List Char → Option (List Shown)
  | 0, _ => none
  | n + 1, l => do
    let a ← jsonObject l
    if a.2 = [']'] then return [a.1]
    else
      let l ← expect [',', ' '] a.2
      let rest ← jsonObjects n l
      return a.1 :: rest

/-- Read the cell of comments. -/
def readComments (l : List Char) : Option (List Shown) :=
  match expect ['['] l with
  | none => none
  | some l => if l = [']'] then some [] else jsonObjects l.length l

/-! ## A table row for a post of a dump -/

/-- The name of a user of the dump, if there is such a user and it has a name. -/
def userIn (d : Dump) (user : Option Int) : Option String :=
  match user with
  | none => none
  | some u => (d.users.rows.find? (fun x => x.id = some u)).bind (·.name)

/-- The title of the question a post belongs to: its own, or that of the post it answers. -/
def questionIn (d : Dump) (r : PostRow) : Option String :=
  match r.title with
  | some t => some t
  | none => match r.parent with
    | none => none
    | some q => ((considered d).find? (fun x => x.id = some q)).bind (·.title)

/-- The tags of a question of the dump. -/
def tagsIn (d : Dump) (q : Option Int) : List String :=
  match (considered d).find? (fun x => x.id = q) with
  | none => []
  | some r => splitTags (r.tags.getD "")

/-- The cells of the row for a post of the dump. -/
structure RowShows (d : Dump) (url : String) (r : PostRow) (row : Rendered) : Prop where
  site_url : Dict.get? row "site_url" = some (.text url)
  id : Dict.get? row "Id" = r.id.map (fun i => .text (toString i))
  owner : Dict.get? row "OwnerUserId" = r.owner.map (fun i => .text (toString i))
  name : Dict.get? row "DisplayName" = (userIn d r.owner).map .text
  license : Dict.get? row "ContentLicense" = r.license.map .text
  kind : Dict.get? row "PostType" = some (.text (if r.typeId = some "1" then "Question" else "Answer"))
  body : Dict.get? row "Body" = r.body.map .text
  parent : Dict.get? row "ParentId" = r.parent.map (fun i => .text (toString i))
  question : Dict.get? row "QuestionTitle" = (questionIn d r).map .text
  link : Dict.get? row "LiveLink" = r.id.map (fun i => .text (url ++ "/questions/" ++ toString i))
  tags : ∃ l, l.Perm (tagsIn d (r.parent.or r.id)) ∧ Dict.get? row "tags" = some (.text (", ".intercalate l))
  comments : ∃ s, Dict.get? row "comments" = some (.text s) ∧ readComments s.toList =
    some ((d.comments.rows.filter (fun c => c.post = r.id)).map (fun c => (userIn d c.user, c.text, c.license)))

/-! ## Markup -/

/-- What an HTML parser takes for markup: the text from each `<` to the next `>`.  The first argument is what has been read
of an unfinished tag. -/
def markup : Option (List Char) → List Char → List (List Char)
  | _, [] => []
  | none, c :: cs => if c = '<' then markup (some []) cs else markup none cs
  | some tag, c :: cs => if c = '>' then tag :: markup none cs else markup (some (tag ++ [c])) cs

/-- Text without markup characters. -/
def Plain (s : List Char) : Prop := '<' ∉ s ∧ '>' ∉ s

/-- Two posts that differ in the question's title and in the texts of the comments only. -/
def SameButTexts (a b : Base × List String × List CommentView) : Prop :=
  { a.1 with question := none } = { b.1 with question := none } ∧ a.2.1 = b.2.1 ∧
    a.2.2.map (fun c => { c with text := none }) = b.2.2.map (fun c => { c with text := none })

end Hyperreal.Spec
