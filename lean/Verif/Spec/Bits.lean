import Verif.Model.Bitmap

/-!
# Specification vocabulary for bit slices, top-k and position windows

Nothing here refers to the modelled functions.
-/

namespace Hyperreal.Spec

/-- The number a bit slice encodes for a document: layer `i` contributes `2^i`. -/
def weight (slices : List Bitmap) (d : Nat) : Nat :=
  match slices with
  | [] => 0
  | s :: rest => (if d ∈ s then 1 else 0) + 2 * weight rest d

/-- How many of the given document sets contain `d`. -/
def multiplicity (bitmaps : List Bitmap) (d : Nat) : Nat := bitmaps.countP (fun b => decide (d ∈ b))

/-- `R` is a top-`k` selection of `M` by weight `w` that keeps all ties of the lowest rank. -/
structure IsTopK (w : Nat → Nat) (M : Bitmap) (k : Int) (R : Bitmap) : Prop where
  subset : R ⊆ M
  /-- everything dropped is strictly lighter than everything kept -/
  upward : ∀ d ∈ R, ∀ d' ∈ M, d' ∉ R → w d' < w d
  /-- at least `k` documents (or all of them) are kept -/
  enough : min k (M.card : Int) ≤ (R.card : Int)
  /-- more than `k` are kept only because of ties: the documents heavier than some kept one are fewer than `k` -/
  tiesOnly : k < (R.card : Int) →
    (((R.filter (fun d => ∃ d' ∈ R, w d' < w d)).card : Nat) : Int) < max k 1

/-- Two positions are in the same document: no document boundary separates them. -/
def SameDoc (boundaries : Bitmap) (p q : Nat) : Prop := ∀ b ∈ boundaries, b ≤ p ↔ b ≤ q

/-- The positions within distance `w` of one of `ps` in the same document. -/
def InWindow (ps boundaries : Bitmap) (w q : Nat) : Prop :=
  ∃ p ∈ ps, SameDoc boundaries p q ∧ q ≤ p + w ∧ p ≤ q + w

/-- A partition layout: every position lies in a document, i.e. some boundary is at or below it and one above. -/
def Covered (ps boundaries : Bitmap) : Prop :=
  ∀ p ∈ ps, (∃ b ∈ boundaries, b ≤ p) ∧ (∃ b ∈ boundaries, p < b)

end Hyperreal.Spec
