import Verif.Model.PlainText
import Verif.Spec.Indexing

/-!
# Specification of the plain text corpus
-/

namespace Hyperreal.Spec
open PlainText (Item)

/-- The texts of the source, without the `None`s. -/
def texts (src : List Item) : List String :=
  src.filterMap (fun i => match i with | .text t => t | .raise _ => none)

/-- The texts numbered from 1. -/
def numbered (ts : List String) : List (Nat × String) := ts.zipIdx.map (fun p => (p.2 + 1, p.1))

/-- The source ends without an exception. -/
def Clean (src : List Item) : Prop := ∀ e, Item.raise e ∉ src

/-- No `KeyboardInterrupt` (or other exception that is not an `Exception`), neither in the source nor in a statement. -/
def NoInterrupt (fault : Nat → Option Err) (src : List Item) : Prop :=
  (∀ e, Item.raise e ∈ src → e.isException = true) ∧ ∀ n e, fault n = some e → e.isException = true

end Hyperreal.Spec
