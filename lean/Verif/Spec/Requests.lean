import Verif.Model.Routes
import Verif.Spec.Store

/-! # Specification vocabulary for requests of any kind -/

namespace Hyperreal.Spec
open Web Cli

/-- What follows the id of the index in the URLs of the requests that edit. -/
def editPaths : List (List String) :=
  [["recreate_model"], ["refine_model"], ["cluster", "delete"], ["cluster", "create"], ["cluster", "merge"], ["cluster", "refine"],
   ["cluster", "pin"], ["feature", "remove_from_model"], ["feature", "pin"]]

variable {σ : Type} [LinearOrder σ]

/-- Requests of any kind, one after the other, each with its own draws and failures; what is left in the index file. -/
def afterRequests (int : String → Option Int) (w : Web σ) : List (Request × Luck σ × (Nat → Option Err)) → DB → DB
  | [], db => db
  | x :: rs, db => afterRequests int w rs (respond int x.2.1 x.2.2 { w with db := db } x.1).1

/-- The request says nowhere that it is about the index 0: neither in the path, nor in a parameter it sends. -/
def NamesOtherIndex (int : String → Option Int) (r : Request) : Prop :=
  (∀ s ∈ urlParts r.url, int s ≠ some 0) ∧ ∀ v, ("index_id", v) ∈ r.form → int v ≠ some 0

end Hyperreal.Spec
