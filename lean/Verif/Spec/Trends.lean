import Verif.Model.Bitmap

/-!
# Percentages
-/

namespace Hyperreal.Spec

/-- `x` is the percentage of the documents of `all` that are in `part`. -/
def Percentage (part all : Bitmap) (x : Rat) : Prop := x * (Finset.card all : Rat) = 100 * (Finset.card (part ∩ all) : Rat)

end Hyperreal.Spec
