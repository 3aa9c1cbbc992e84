import Verif.Spec.Store
import Verif.Spec.Bits
import Mathlib.Data.List.Perm.Basic

/-! # Specification vocabulary for reading the index -/

namespace Hyperreal.Spec

/-- The rows of a `select` come in any order: `visit` rearranges. -/
def AnyOrder {α : Type} (visit : List α → List α) : Prop := ∀ l, (visit l).Perm l

/-- The features of a cluster. -/
def featuresIn (db : DB) (c : Int) : List Nat := (db.fc.filter (fun r => r.cid = c)).map (·.fid)

/-- The documents matching some feature of the cluster. -/
def CoveredBy (db : DB) (c : Int) (d : Nat) : Prop := ∃ f, assign db f = some c ∧ d ∈ db.docsOf f

end Hyperreal.Spec

namespace Hyperreal.Spec

/-- `random.sample(range(n), k)` draws `k` distinct indices below `n`. -/
def Draws (pick : Nat → Nat → List Nat) : Prop :=
  ∀ n k, k ≤ n → (pick n k).Nodup ∧ (pick n k).length = k ∧ ∀ i ∈ pick n k, i < n

/-- `L` lists the `k` most frequent features of the cluster (all of them when there are at most `k`), the most frequent
first; `fid` and `count` read the feature id and the frequency of a row. -/
structure IsListing {α : Type} (fid count : α → Nat) (db : DB) (c : Int) (k : Nat) (L : List α) : Prop where
  size : L.length = min k (featuresIn db c).length
  once : (L.map fid).Nodup
  inCluster : ∀ x ∈ L, assign db (fid x) = some c
  counts : ∀ x ∈ L, count x = (db.docsOf (fid x)).card
  descending : L.Pairwise (fun a b => count b ≤ count a)
  best : ∀ f, assign db f = some c → f ∉ L.map fid → ∀ x ∈ L, (db.docsOf f).card ≤ count x

end Hyperreal.Spec
