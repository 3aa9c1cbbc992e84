import Verif.Model.Bitmap
import Mathlib.Algebra.Field.Rat
import Mathlib.Algebra.BigOperators.Group.Finset.Basic

/-!
# Specification vocabulary for the scoring of clusters

`docs f` is the set of documents of feature `f`; `G` is a set of features (a cluster).
-/

namespace Hyperreal.Spec

/-- Documents of a feature as seen under a probe query; no probe, or an empty one, leaves them as they are. -/
def seen (docs : Nat → Bitmap) (probe : Option Bitmap) (f : Nat) : Bitmap :=
  if probe = none ∨ probe = some ∅ then docs f else docs f ∩ probe.getD ∅

/-- The number of (feature, document) hits of a cluster. -/
def hits (docs : Nat → Bitmap) (G : Finset Nat) : Nat := ∑ f ∈ G, (docs f).card

/-- The documents covered by a cluster. -/
def covered (docs : Nat → Bitmap) (G : Finset Nat) : Bitmap := G.biUnion docs

/-- The objective of a cluster: hits per covered document and feature, minus its value if no two features overlapped. -/
def objective (docs : Nat → Bitmap) (G : Finset Nat) : Rat :=
  (hits docs G : Rat) / ((covered docs G).card + G.card) - (hits docs G : Rat) / (hits docs G + G.card)

/-- Does the feature share a document with another feature of the cluster? -/
def Overlaps (docs : Nat → Bitmap) (f : Nat) (G : Finset Nat) : Prop :=
  ∃ g ∈ G, g ≠ f ∧ (docs f ∩ docs g).Nonempty

/-- The documented score of a feature for a cluster. -/
def IsScore (docs : Nat → Bitmap) (G : Finset Nat) (f : Nat) (s : Rat) : Prop :=
  (f ∈ G → Overlaps docs f G → s = objective docs G - objective docs (G.erase f)) ∧
  (f ∈ G → ¬ Overlaps docs f G → (covered docs (G.erase f)).Nonempty → s = -1) ∧
  (f ∈ G → ¬ Overlaps docs f G → covered docs (G.erase f) = ∅ → s = 0) ∧
  (f ∉ G → Overlaps docs f G → s = objective docs (insert f G) - objective docs G) ∧
  (f ∉ G → ¬ Overlaps docs f G → s = -1)

end Hyperreal.Spec
