import Mathlib.Data.List.Basic

/-! # Specification vocabulary for the command line -/

namespace Hyperreal.Spec

/-- A line (or a quoted document over several lines) of a text file. -/
inductive Line where
  /-- a line without commas, that does not begin with a quote -/
  | plain (t : List Char)
  /-- such a text, then a comma and the rest of the line -/
  | cut (t rest : List Char)
  /-- a text in quotes, with its quotes doubled -/
  | quoted (t : List Char)

/-- A text with its quotes doubled. -/
def doubled (t : List Char) : List Char := t.flatMap (fun c => if c = '"' then ['"', '"'] else [c])

/-- The characters of the line in the file. -/
def Line.render : Line → List Char
  | .plain t => t ++ ['\n']
  | .cut t rest => t ++ ',' :: rest ++ ['\n']
  | .quoted t => '"' :: doubled t ++ ['"', '\n']

/-- What the command makes of it. -/
def Line.doc : Line → List Char
  | .plain t => t
  | .cut t _ => t
  | .quoted t => t

/-- The condition on the characters. -/
def Line.Ok (limit : Nat) : Line → Prop
  | .plain t => '\n' ∉ t ∧ ',' ∉ t ∧ t.head? ≠ some '"' ∧ t.length ≤ limit
  | .cut t rest => '\n' ∉ t ∧ ',' ∉ t ∧ t.head? ≠ some '"' ∧ t.length ≤ limit ∧ '\n' ∉ rest ∧ '"' ∉ rest ∧ rest.length ≤ limit
  | .quoted t => t.length ≤ limit

end Hyperreal.Spec
