import Mathlib.Data.List.Basic

/-!
# Model of the tokenisers of `/repo/hyperreal/utilities.py`

Modelled: the translation of curly quotes, the cleaning of social media text, cutting the text at the matches of the
regular expression, dropping blank pieces.  `str.lower` is a parameter (any function on texts), as is the set of positions at
which `\b` (with `regex.WORD`: the default word boundaries of Unicode) matches.

Which of two adjoining matches `regex.split` reports (an empty one directly after another one) is left open: `Finds` allows
all possibilities.
-/

namespace Hyperreal.Tokens

/-- utilities.py:15, `curly_quote_translator`. -/
def straight (c : Char) : Char :=
  if c = '‘' ∨ c = '’' then '\'' else if c = '“' ∨ c = '”' then '"' else c

/-- `\s` of the module `regex` (utilities.py:33): the property White_Space. -/
def regexSpace (c : Char) : Bool :=
  (9 ≤ c.toNat && c.toNat ≤ 13) || c.toNat = 32 || c.toNat = 0x85 || c.toNat = 0xA0 || c.toNat = 0x1680 ||
    (0x2000 ≤ c.toNat && c.toNat ≤ 0x200A) || c.toNat = 0x2028 || c.toNat = 0x2029 || c.toNat = 0x202F || c.toNat = 0x205F ||
    c.toNat = 0x3000

/-- What `str.strip` (utilities.py:41, 47) removes: the same, and four control characters. -/
def stripSpace (c : Char) : Bool := regexSpace c || (0x1C ≤ c.toNat && c.toNat ≤ 0x1F)

/-- `\p{Word_Break=WSegSpace}` (utilities.py:22): spaces that allow a break. -/
def wordSpace (c : Char) : Bool :=
  c.toNat = 32 || c.toNat = 0x1680 || (0x2000 ≤ c.toNat && c.toNat ≤ 0x2006) || (0x2008 ≤ c.toNat && c.toNat ≤ 0x200A) ||
    c.toNat = 0x205F || c.toNat = 0x3000

/-- `(?:https?://|#|@)` (utilities.py:33) matches at the start of the text. -/
def marker : List Char → Bool
  | 'h' :: 't' :: 't' :: 'p' :: ':' :: '/' :: '/' :: _ => true
  | 'h' :: 't' :: 't' :: 'p' :: 's' :: ':' :: '/' :: '/' :: _ => true
  | '#' :: _ => true
  | '@' :: _ => true
  | _ => false

/-- `social_media_cleaner.sub("", text)` (utilities.py:26-34, 38-40).  `inside`: the scan is in the part `.*?` of a match, that
ends before the next white space or at the end of the text.  The characters of the marker itself are no white space, so that
a match may be scanned as one part. -/
def clean : Bool → List Char → List Char
  | _, [] => []
  | false, c :: cs => if marker (c :: cs) then clean true cs else c :: clean false cs
  | true, c :: cs => if regexSpace c then c :: clean false cs else clean true cs

/-- `text[s:e]`. -/
def slice (text : List Char) (s e : Nat) : List Char := (text.take e).drop s

/-- A match of `\b\p{Word_Break=WSegSpace}*'?` (utilities.py:17-24) from `s` to `e`: it starts at a boundary, takes all spaces, and
at most one apostrophe. -/
structure IsMatch (boundary : Nat → Bool) (text : List Char) (s e : Nat) : Prop where
  start : boundary s = true
  inside : s ≤ e ∧ e ≤ text.length
  shape : ∃ spaces quote, slice text s e = spaces ++ quote ∧ (∀ c ∈ spaces, wordSpace c = true) ∧
    (quote = ['\''] ∨ quote = [] ∧ ∀ c, text[e]? = some c → wordSpace c = false)

/-- The matches `word_tokenizer.split` finds from `pos` on (utilities.py:41, 47): each time the first one at or after the end of the last one;
after the last match there is no other. -/
inductive Finds (boundary : Nat → Bool) (text : List Char) : Nat → List (Nat × Nat) → Prop where
  | none (pos : Nat) (h : ∀ p, pos < p → p < text.length → boundary p = false) : Finds boundary text pos []
  | next (pos s e : Nat) (ms : List (Nat × Nat)) (hs : pos ≤ s) (hm : IsMatch boundary text s e)
      (h : ∀ p, pos < p → p < s → boundary p = false) (hn : Finds boundary text e ms) : Finds boundary text pos ((s, e) :: ms)

/-- The pieces of `split` between the matches (utilities.py:41, 47), with the position each one starts at. -/
def pieces (text : List Char) : Nat → List (Nat × Nat) → List (Nat × List Char)
  | pos, [] => [(pos, text.drop pos)]
  | pos, (s, e) :: ms => (pos, slice text pos s) :: pieces text e ms

/-- `token.strip()` is not empty. -/
def nonBlank (t : List Char) : Bool := t.any fun c => !stripSpace c

/-- The tokens of a text that has been translated, lowered and cleaned (utilities.py:41, 47), with their positions. -/
def pick (text : List Char) (ms : List (Nat × Nat)) : List (Nat × List Char) :=
  (pieces text 0 ms).filter fun p => nonBlank p.2

/-- `tokens(text)` (utilities.py:45-48), when `split` finds the matches `ms` in the prepared text. -/
def tokens (lower : List Char → List Char) (ms : List (Nat × Nat)) (text : List Char) : List (List Char) :=
  (pick (lower (text.map straight)) ms).map (·.2)

/-- `social_media_tokens(text)` (utilities.py:37-42). -/
def socialMediaTokens (lower : List Char → List Char) (ms : List (Nat × Nat)) (text : List Char) : List (List Char) :=
  (pick (clean false (lower (text.map straight))) ms).map (·.2)

end Hyperreal.Tokens
