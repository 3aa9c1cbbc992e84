import Verif.Spec.Html
import Verif.Spec.Links
import Verif.Model.Pages

/-!
# Specification: what a browser reads in a page

A reader of HTML: tags with their attributes, each with the text that follows it, character references replaced.  It follows
the HTML standard for what occurs in these pages (attributes in double quotes, without quotes, or without value); `<` is
taken to start a tag always.
-/

namespace Hyperreal.Spec.Page
open Web Pages

/-- What the reader is in the middle of. -/
inductive Mode where
  | text | tag | gap | key | value | quoted | bare
  deriving DecidableEq

/-- A tag as it was read, with the text after it. -/
structure Elem (α : Type) where
  tag : List Char
  attrs : List (List Char × List α)
  text : List α
  deriving DecidableEq

/-- The tags that have been read, the one being read, and the attribute being read. -/
structure Reader (α : Type) where
  done : List (Elem α)
  cur : Elem α
  mode : Mode
  key : List Char
  val : List α
  deriving DecidableEq

def isSpace (c : Char) : Bool := c = ' ' || c = '\n' || c = '\t' || c = '\r' || c = '\x0c'

/-- The attribute is complete. -/
def Reader.push {α : Type} (r : Reader α) (m : Mode) : Reader α :=
  { r with cur := { r.cur with attrs := r.cur.attrs ++ [(r.key, r.val)] }, mode := m, key := [], val := [] }

/-- One character. -/
def read (r : Reader Char) (c : Char) : Reader Char :=
  match r.mode with
  | .text =>
    if c = '<' then { r with done := r.done ++ [r.cur], cur := ⟨[], [], []⟩, mode := .tag }
    else { r with cur := { r.cur with text := r.cur.text ++ [c] } }
  | .tag =>
    if c = '>' then { r with mode := .text }
    else if isSpace c then { r with mode := .gap }
    else { r with cur := { r.cur with tag := r.cur.tag ++ [c] } }
  | .gap =>
    if c = '>' then { r with mode := .text }
    else if isSpace c || c = '/' then r
    else { r with mode := .key, key := [c] }
  | .key =>
    if c = '>' then r.push .text
    else if isSpace c || c = '/' then r.push .gap
    else if c = '=' then { r with mode := .value }
    else { r with key := r.key ++ [c] }
  | .value =>
    if c = '>' then r.push .text
    else if isSpace c then r
    else if c = '"' then { r with mode := .quoted }
    else { r with mode := .bare, val := [c] }
  | .quoted => if c = '"' then r.push .gap else { r with val := r.val ++ [c] }
  | .bare =>
    if c = '>' then r.push .text
    else if isSpace c then r.push .gap
    else { r with val := r.val ++ [c] }

/-- Before anything is read. -/
def start {α : Type} : Reader α := ⟨[], ⟨[], [], []⟩, .text, [], []⟩

/-- What is read in a tag: its name, its attributes with their values, and the text up to the next tag. -/
structure Node where
  tag : String
  attrs : List (String × String)
  text : String
  deriving DecidableEq, Repr

/-- Character references are replaced. -/
def Elem.node (e : Elem Char) : Node :=
  ⟨String.ofList e.tag, e.attrs.map (fun a => (String.ofList a.1, String.ofList (readText a.2))), String.ofList (readText e.text)⟩

/-- The tags of a page in order, after the text before the first one (which has no tag). -/
def nodes (s : List Char) : List Node :=
  let r := s.foldl read start
  (r.done ++ [r.cur]).map Elem.node

/-- The text is finished: no tag is left open. -/
def Finished (s : List Char) : Prop := (s.foldl read start).mode = .text

/-- A text in which `{{ x }}` stands for the value of `x`, as it is. -/
def textOf (env : String → String) (t : String) : String :=
  String.ofList ((cellsOf none t.toList).flatMap (fun x => match x with | .inl c => [c] | .inr n => (env n).toList))

/-- A tag as it is written in a template. -/
structure Pattern where
  tag : String
  attrs : List (String × String) := []
  text : String := ""
  deriving DecidableEq

/-- The tag with values. -/
def Pattern.node (env : String → String) (p : Pattern) : Node :=
  ⟨p.tag, p.attrs.map (fun a => (a.1, textOf env a.2)), textOf env p.text⟩

end Hyperreal.Spec.Page
