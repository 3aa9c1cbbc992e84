import Verif.Model.Bitmap
import Mathlib.Algebra.Field.Rat

/-! # Specification vocabulary for pivoting -/

namespace Hyperreal.Spec

/-- The Jaccard similarity of two sets of documents, rounded by `rd`. -/
def similarity {σ : Type} (rd : Rat → σ) (a b : Bitmap) : σ :=
  rd (((a ∩ b).card : Rat) / ((a ∪ b).card : Rat))

end Hyperreal.Spec
