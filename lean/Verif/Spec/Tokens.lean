import Verif.Model.Tokens

/-!
# Specification: tokens of a text
-/

namespace Hyperreal.Spec

/-- Position `i` belongs to the token `t` (its start and its characters). -/
def Within (t : Nat × List Char) (i : Nat) : Prop := t.1 ≤ i ∧ i < t.1 + t.2.length

/-- `ts` are the tokens of the text: parts of it, in order, without overlap, none blank, together everything but white
space and apostrophes; no token has a word boundary inside, and only a word boundary, white space or an apostrophe separates
characters. -/
structure Tokenised (boundary : Nat → Bool) (text : List Char) (ts : List (Nat × List Char)) : Prop where
  order : ts.Pairwise fun a b => a.1 + a.2.length ≤ b.1
  parts : ∀ t ∈ ts, ∃ before after, text = before ++ t.2 ++ after ∧ before.length = t.1
  notBlank : ∀ t ∈ ts, ∃ c ∈ t.2, Tokens.stripSpace c = false
  covers : ∀ i c, text[i]? = some c → Tokens.stripSpace c = true ∨ c = '\'' ∨ ∃ t ∈ ts, Within t i
  whole : ∀ t ∈ ts, ∀ i, Within t i → Within t (i + 1) → boundary (i + 1) = false
  together : ∀ i c d, text[i]? = some c → text[i + 1]? = some d → boundary (i + 1) = false →
    Tokens.stripSpace c = false → c ≠ '\'' → Tokens.stripSpace d = false → d ≠ '\'' → ∃ t ∈ ts, Within t i ∧ Within t (i + 1)

/-- A link, hashtag or mention starts here. -/
def Marks (m : List Char) : Prop := m = "http://".toList ∨ m = "https://".toList ∨ m = "#".toList ∨ m = "@".toList

/-- There is none in the text. -/
def Unmarked (text : List Char) : Prop := ∀ m, Marks m → ¬ m <:+: text

/-- Every word of the text (between white space) is cut before the first link, hashtag or mention in it; nothing else
changes. -/
inductive Cleaned : List Char → List Char → Prop where
  | word (a : List Char) (ha : ∀ c ∈ a, Tokens.regexSpace c = false) (hm : Unmarked a) : Cleaned a a
  | cut (p m r : List Char) (ha : ∀ c ∈ p ++ m ++ r, Tokens.regexSpace c = false) (hm : Marks m)
      (hp : ∀ b b', p = b ++ b' → b' ≠ [] → ∀ m', Marks m' → ¬ m' <+: b' ++ m ++ r) : Cleaned (p ++ m ++ r) p
  | space (a a' b b' : List Char) (w : Char) (hw : Tokens.regexSpace w = true) (h : Cleaned a a') (h' : Cleaned b b') :
      Cleaned (a ++ w :: b) (a' ++ w :: b')

/-- The 25 characters with the Unicode property White_Space. -/
def whiteSpace : List Nat :=
  [0x9, 0xA, 0xB, 0xC, 0xD, 0x20, 0x85, 0xA0, 0x1680, 0x2000, 0x2001, 0x2002, 0x2003, 0x2004, 0x2005, 0x2006, 0x2007, 0x2008,
    0x2009, 0x200A, 0x2028, 0x2029, 0x202F, 0x205F, 0x3000]

/-- The white space at which no line or word is held together: neither line ends, tabs nor no-break spaces (Word_Break =
WSegSpace). -/
def breakingSpace : List Nat :=
  whiteSpace.filter (fun n => n ∉ [0x9, 0xA, 0xB, 0xC, 0xD, 0x85, 0x2028, 0x2029, 0xA0, 0x2007, 0x202F])

end Hyperreal.Spec
