import Verif.Model.Bitmap

/-!
# Model of `/repo/hyperreal/utilities.py`: bit slices and position windows
-/

namespace Hyperreal

/-- utilities.py:63-74, the loop of `bstm`, running over `reversed(range(len(bitslice)))`; the list argument is the
reversed bit slice.  `e` and `g` are the Python variables of the same name; leaving the loop by `break`
returns `g | e` with the updated `e`. -/
def bstmLoop (k : Int) : List Bitmap → Bitmap → Bitmap → Bitmap
  | [], e, g => g ∪ e
  | s :: rest, e, g =>
    let x := g ∪ (e ∩ s)
    let n : Int := x.card
    if n > k then bstmLoop k rest (e ∩ s) g
    else if n < k then bstmLoop k rest (e \ s) x
    else g ∪ (e ∩ s)

/-- utilities.py:51-76 `bstm(matching, bitslice, top_k)`. -/
def bstm (matching : Bitmap) (bitslice : List Bitmap) (k : Int) : Bitmap :=
  if (matching.card : Int) ≤ k then matching
  else bstmLoop k bitslice.reverse matching ∅

/-- utilities.py:99-107, adding one bitmap to the bit slice.  Every layer keeps `bs ^ doc_ids` and passes on the
carry `bs & doc_ids`, stopping at an empty carry; a carry left after the last layer is appended. -/
def addCarry : List Bitmap → Bitmap → List Bitmap
  | [], c => if c = ∅ then [] else [c]
  | b :: bs, c =>
    let carry := b ∩ c
    symmDiff b c :: (if carry = ∅ then bs else addCarry bs carry)

/-- utilities.py:89-109 `compute_bitslice(bitmaps)`; the accumulator is `(matching, bitslice)`. -/
def computeBitslice (bitmaps : List Bitmap) : Bitmap × List Bitmap :=
  bitmaps.foldl (fun acc b => (acc.1 ∪ b, addCarry acc.2 b)) (∅, [∅])

/-- utilities.py:119-122 `slice_gen(bm, layer)`. -/
def sliceGen (bm : Bitmap) (layer : Nat) : List (Nat × Nat) := bm.elems.map (fun d => (d, 2 ^ layer))

/-- Tuple comparison of `(doc_id, weight)` pairs as used by `heapq.merge`. -/
def pairLe (a b : Nat × Nat) : Bool := a.1 < b.1 || (a.1 == b.1 && a.2 ≤ b.2)

/-- utilities.py:125 `heapq.merge(*(slice_gen(bm, i) for i, bm in enumerate(bitslice)))`, as iterated two-way merge.
Starts numbering layers at `i`. -/
def mergeSlices : Nat → List Bitmap → List (Nat × Nat)
  | _, [] => []
  | i, bm :: rest => List.merge (sliceGen bm i) (mergeSlices (i + 1) rest) pairLe

/-- utilities.py:127-130 `itertools.groupby` on the document id followed by the sum of the weights of each group. -/
def groupSum : List (Nat × Nat) → List (Nat × Nat)
  | [] => []
  | (d, w) :: rest =>
    match groupSum rest with
    | [] => [(d, w)]
    | (d', w') :: out => if d = d' then (d, w + w') :: out else (d, w) :: (d', w') :: out

/-- utilities.py:112-130 `weight_bitslice(bitslice)`. -/
def weightBitslice (bitslice : List Bitmap) : List (Nat × Nat) := groupSum (mergeSlices 0 bitslice)

/-- utilities.py:151-153: the start of the document containing `p` and of the next one, from the boundaries. -/
def docBounds (boundaries : Bitmap) (p : Nat) : Except Err (Nat × Nat) := do
  let r : Int := boundaries.rank p
  let ds ← boundaries.item (r - 1)
  let ns ← boundaries.item r
  return (ds, ns)

/-- utilities.py:149 `if position >= next_start`: look the bounds up again only on leaving the current document.
`cur` holds `(doc_start, next_start)`; it is `none` before the first iteration (`next_start = -1`, so the first
position always enters the `if`). -/
def curBounds (boundaries : Bitmap) (p : Nat) : Option (Nat × Nat) → Except Err (Nat × Nat)
  | none => docBounds boundaries p
  | some (ds, ns) => if p ≥ ns then docBounds boundaries p else .ok (ds, ns)

/-- utilities.py:148-157, the loop of `expand_positions_window`. -/
def expandLoop (boundaries : Bitmap) (w : Nat) :
    List Nat → Option (Nat × Nat) → Bitmap → Except Err Bitmap
  | [], _, windowed => .ok windowed
  | p :: ps, cur, windowed => do
    let (ds, ns) ← curBounds boundaries p cur
    -- end_range = min(next_start, position + window_size) + 1
    let endRange := min ns (p + w) + 1
    expandLoop boundaries w ps (some (ds, ns)) (windowed.addRange (max ds (p - w)) endRange)

/-- utilities.py:133-159 `expand_positions_window(positions, doc_boundaries, window_size)`, for `window_size ≥ 0`
(`p - w` is truncated at 0, harmless under the `max` with `doc_start ≥ 0`). -/
def expandWindow (positions boundaries : Bitmap) (w : Nat) : Except Err Bitmap :=
  if positions = ∅ then .ok ∅
  else expandLoop boundaries w positions.elems none positions

end Hyperreal
