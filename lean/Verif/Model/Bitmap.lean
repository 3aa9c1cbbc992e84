import Mathlib.Data.Finset.Basic
import Mathlib.Data.Finset.Card
import Mathlib.Data.Finset.Lattice.Fold
import Mathlib.Data.Finset.SymmDiff
import Mathlib.Order.Interval.Finset.Nat
import Mathlib.Data.List.Nodup

/-!
# Model of `pyroaring.BitMap`

A roaring bitmap is a set of unsigned integers.  It is modelled by `Finset Nat`; the set operators
`|`, `&`, `-`, `^` are `∪`, `∩`, `\`, `symmDiff`, and `len` is `Finset.card`.
The 32-bit bound on members is not modelled (see DESIGN.md).
-/

namespace Hyperreal

/-- `pyroaring.BitMap` (used throughout /repo/hyperreal/index.py, imported at index.py:26). -/
abbrev Bitmap := Finset Nat

/-- Exceptions raised by the modelled Python code, as values.  One constructor per Python exception class that
the modelled functions can raise. -/
inductive Err where
  | indexError
  | keyError
  | valueError
  | typeError
  | attributeError
  | nameError
  | zeroDivision
  | integrity        -- sqlite3.IntegrityError
  | operational      -- sqlite3.OperationalError
  | indexing         -- hyperreal.index.IndexingError
  | corpusMissing    -- hyperreal.index.CorpusMissingError
  | unsupportedCorpus -- hyperreal.index.UnsupportedCorpusOperation
  | migration        -- hyperreal._index_schema.MigrationError
  | worker           -- an exception re-raised from a pool worker
  | http (code : Nat) -- cherrypy.HTTPError
  | interrupt        -- KeyboardInterrupt / SystemExit: a BaseException that is not an Exception
  deriving DecidableEq, Repr

namespace Bitmap

/-- Iteration over a bitmap: its members in ascending order (`for x in bitmap`). -/
def elems (s : Bitmap) : List Nat := (List.range (s.sup id + 1)).filter (· ∈ s)

/-- `BitMap.rank(x)`: the number of members `≤ x`. -/
def rank (s : Bitmap) (x : Nat) : Nat := (s.filter (· ≤ x)).card

/-- `bitmap[i]` for an integer index, Python style: negative indices count from the end, out of range raises
`IndexError`. -/
def item (s : Bitmap) (i : Int) : Except Err Nat :=
  let l := s.elems
  let j : Int := if i < 0 then i + l.length else i
  if j < 0 then .error .indexError
  else match l[j.toNat]? with
    | some x => .ok x
    | none => .error .indexError

/-- `BitMap.range_cardinality(lo, hi)`: the number of members in `[lo, hi)`. -/
def rangeCard (s : Bitmap) (lo hi : Nat) : Nat := (s.filter (fun x => lo ≤ x ∧ x < hi)).card

/-- `BitMap.add_range(lo, hi)`: add all of `[lo, hi)`. -/
def addRange (s : Bitmap) (lo hi : Nat) : Bitmap := s ∪ Finset.Ico lo hi

end Bitmap
end Hyperreal
