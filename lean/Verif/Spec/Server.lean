import Verif.Model.Server
import Verif.Spec.Query

/-! # Specification vocabulary for the web views -/

namespace Hyperreal.Spec

/-- Rows, jobs and heaps come in any order, rounding is monotone and keeps positive numbers above zero, and there is a
worker. -/
structure FairWeb {σ : Type} [LinearOrder σ] (w : Web σ) : Prop where
  mono : Monotone w.rd
  pos : ∀ x, 0 < x → w.rd 0 < w.rd x
  visitC : AnyOrder w.visitC
  visit : ∀ c, AnyOrder (w.visit c)
  visitT : AnyOrder w.visitT
  arrange : ∀ c, AnyOrder (w.arrange c)
  workers : 1 ≤ w.workers
  completed : AnyOrder w.completed

/-- The documents a cluster page is about: those of the cluster, with the feature if one is given, and in the filter cluster if
one is given. -/
def OnPage (db : DB) (cluster : Int) (feature : Option Nat) (filter : Option Int) (d : Nat) : Prop :=
  CoveredBy db cluster d ∧ (∀ f, feature = some f → d ∈ db.docsOf f) ∧ (∀ c, filter = some c → CoveredBy db c d)

end Hyperreal.Spec
