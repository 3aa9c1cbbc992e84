import Verif.Spec.Scoring
import Verif.Spec.Refine
import Verif.Spec.Query
import Verif.Spec.Top
import Mathlib.Data.Prod.Lex
import Mathlib.Data.List.Lex
import Mathlib.Order.Defs.LinearOrder
import Mathlib.Algebra.Order.Ring.Rat

/-!
# Specification vocabulary for the rounds of a refinement

A refinement runs in rounds; between two rounds the clusters under refinement form a `Placement`.  `docs f` is the set of
documents of feature `f`.
-/

namespace Hyperreal.Spec

/-- The clusters under refinement and their features, at some moment. -/
structure Placement where
  clusters : Finset Int
  members : Int → Finset Nat

/-- The placement stored in the database, of the clusters `S` (without the pinned ones). -/
def placement (db : DB) (S : List Int) : Placement where
  clusters := (refinable db S).toFinset
  members := fun x => if x ∈ refinable db S then (featuresIn db x).toFinset else ∅

/-- Among the clusters `T`, the feature `f` has its greatest score in `y`; of equally good ones `y` has the greatest id. -/
def BestAmong (docs : Nat → Bitmap) (p : Placement) (T : Finset Int) (f : Nat) (y : Int) : Prop :=
  y ∈ T ∧ ∃ s, IsScore docs (p.members y) f s ∧
    ∀ z ∈ T, ∀ t, IsScore docs (p.members z) f t → t < s ∨ (t = s ∧ z ≤ y)

/-- The features of a group of clusters. -/
def Placement.union (p : Placement) (g : List Int) : Finset Nat := g.toFinset.biUnion p.members

/-- Group testing: the clusters are divided evenly into `batches` groups, and a feature is compared with the clusters of those
`topK` groups in which, taken as one cluster, it has its greatest scores (of equally good groups the greatest in lexicographic
order count); it may also be compared with its own cluster. -/
def GroupTested (docs : Nat → Bitmap) (p : Placement) (batches topK : Nat) (movable : Finset Nat) (tested : Nat → Finset Int) :
    Prop :=
  ∃ groups : List (List Int), groups.length = batches ∧ groups.flatten.Nodup ∧ (∀ c, c ∈ groups.flatten ↔ c ∈ p.clusters) ∧
    (∀ g ∈ groups, p.clusters.card / batches ≤ g.length ∧ g.length ≤ p.clusters.card / batches + 1) ∧
    ∀ f ∈ movable, ∃ L : List (Rat ×ₗ List Int),
      IsTop topK (fun x => (ofLex x).2 ∈ groups ∧ (p.union (ofLex x).2).Nonempty ∧ IsScore docs (p.union (ofLex x).2) f (ofLex x).1) L ∧
      (∀ g ∈ L, ∀ c ∈ (ofLex g).2, (p.members c).Nonempty → c ∈ tested f) ∧
      (∀ c ∈ tested f, f ∈ p.members c ∨ ∃ g ∈ L, c ∈ (ofLex g).2)

/-- The clusters the features are compared with: all that have features when there are too few clusters for the number of
groups, otherwise those found by group testing. -/
def TestedIn (docs : Nat → Bitmap) (p : Placement) (batches topK : Nat) (movable : Finset Nat) (tested : Nat → Finset Int) :
    Prop :=
  ((batches ≤ 1 ∨ p.clusters.card < batches * 2) →
    ∀ f ∈ movable, ∀ c, c ∈ tested f ↔ c ∈ p.clusters ∧ (p.members c).Nonempty) ∧
  (0 < batches → batches * 2 ≤ p.clusters.card → GroupTested docs p batches topK movable tested)

/-- One round, from `p` to `q`.  `movable` are the features that may move, `fixed` the clusters that may not be dissolved,
`k` how many clusters are to be dissolved in this round, `accept f` the draw whether `f` may move, `tested f` the clusters `f` is
compared with, `gone` the clusters dissolved and `wants` the features that would move if the draws allowed it. -/
structure Round (docs : Nat → Bitmap) (movable : Finset Nat) (fixed : Finset Int) (minFeatures k : Nat) (accept : Nat → Bool)
    (p q : Placement) (tested : Nat → Finset Int) (gone : Finset Int) (wants : Finset Nat) : Prop where
  /-- A feature is compared with clusters that have features, at least with one. -/
  testedSome : ∀ f ∈ movable, (tested f).Nonempty ∧ ∀ z ∈ tested f, z ∈ p.clusters ∧ (p.members z).Nonempty
  /-- Dissolved are `k` clusters without pinned features, or all there are. -/
  goneFree : gone ⊆ p.clusters \ fixed
  goneCount : gone.card = min k (p.clusters \ fixed).card
  /-- Their objectives are the lowest. -/
  goneLowest : ∀ x ∈ gone, ∀ y ∈ p.clusters \ fixed, y ∉ gone → objective docs (p.members x) ≤ objective docs (p.members y)
  clusters : q.clusters = p.clusters \ gone
  /-- Features are in at most one cluster, and only in existing ones. -/
  single : ∀ f x y, f ∈ q.members x → f ∈ q.members y → x = y
  outside : ∀ x ∉ q.clusters, q.members x = ∅
  /-- Other features stay. -/
  others : ∀ f, f ∉ movable → ∀ x, f ∈ q.members x ↔ f ∈ p.members x
  wantsMovable : wants ⊆ movable
  /-- Moves do not take a cluster below the least number of features. -/
  keeps : ∀ x ∈ q.clusters, minFeatures ≤ (p.members x).card → minFeatures ≤ (q.members x).card
  /-- A feature of a dissolved cluster goes to its best cluster, unless that is dissolved as well. -/
  evicted : ∀ f ∈ movable, ∀ x ∈ gone, f ∈ p.members x → f ∈ wants ∧ ∃ y ∈ q.clusters, f ∈ q.members y ∧
    ∀ b, BestAmong docs p (tested f) f b → b ∉ gone → y = b
  /-- A feature that wants to move has a better cluster, and goes there if the draw allows it. -/
  moves : ∀ f ∈ wants, ∀ x, x ∉ gone → f ∈ p.members x →
    ∃ y, BestAmong docs p (tested f) f y ∧ y ≠ x ∧ y ∉ gone ∧ f ∈ q.members (if accept f = true then y else x)
  /-- All others stay: their cluster is the best for them, or their best cluster is dissolved, or too few features remain in
  their cluster. -/
  stays : ∀ f ∈ movable, f ∉ wants → ∀ x, f ∈ p.members x → f ∈ q.members x ∧
    ∃ y, BestAmong docs p (tested f) f y ∧ (y = x ∨ y ∈ gone ∨ (p.members x ∩ q.members x).card ≤ minFeatures)

/-- A new cluster `new` is split off the largest cluster (of equally large ones the one with the greatest id): it gets the
features that are not pinned and drawn by `coin`. -/
def Split (pinned : Finset Nat) (coin : Nat → Bool) (new : Int) (p q : Placement) : Prop :=
  new ∉ p.clusters ∧ q.clusters = insert new p.clusters ∧
  ∃ x ∈ p.clusters,
    (∀ z ∈ p.clusters, (p.members z).card < (p.members x).card ∨ ((p.members z).card = (p.members x).card ∧ z ≤ x)) ∧
    (∀ f, f ∈ q.members new ↔ f ∈ p.members x ∧ f ∉ pinned ∧ coin f = true) ∧
    (∀ f, f ∈ q.members x ↔ f ∈ p.members x ∧ f ∉ q.members new) ∧
    ∀ y, y ≠ x → y ≠ new → q.members y = p.members y

/-- A refinement in at most `n` rounds: `p 0`, ..., `p k` are the placements between them.  `d` clusters are to be dissolved, `per`
in each round as long as any are left to be dissolved.  It stops early after a round that dissolved nothing if less than the
fraction `tol` of the movable features would move. -/
structure Course (docs : Nat → Bitmap) (movable : Finset Nat) (fixed : Finset Int) (minFeatures per batches topK : Nat) (tol : Rat)
    (accept : Nat → Nat → Bool) (n d k : Nat) (p : Nat → Placement) (tested : Nat → Nat → Finset Int) (gone : Nat → Finset Int)
    (wants : Nat → Finset Nat) : Prop where
  atMost : k ≤ n
  rounds : ∀ j < k, Round docs movable fixed minFeatures (min (d - j * per) per) (accept j) (p j) (p (j + 1)) (tested j) (gone j)
    (wants j)
  tests : ∀ j < k, TestedIn docs (p j) batches topK movable (tested j)
  goesOn : ∀ j, j + 1 < k → gone j = ∅ → tol ≤ ((wants j).card : Rat) / movable.card
  stops : k < n → ∃ j, k = j + 1 ∧ gone j = ∅ ∧ ((wants j).card : Rat) / movable.card < tol

end Hyperreal.Spec
