import Verif.Model.Dict
import Verif.Model.Store
import Mathlib.Algebra.Field.Rat
import Mathlib.Algebra.Order.Ring.Rat
import Mathlib.Data.Prod.Lex
import Mathlib.Data.List.Lex
import Mathlib.Data.List.Sort

/-!
# Scoring of feature moves (index.py:1276-1417, 2245-2385)

`measureContribution` computes with exact rationals.  What chooses between scores (`scoreProposedMoves`,
`findBestMoves`) is generic in the linearly ordered type `σ` of scores, so that it covers floats as well.
-/

namespace Hyperreal

/-- Python's `/` on integers, exact: division by zero raises. -/
def pyDiv (a b : Int) : Except Err Rat := if b = 0 then .error .zeroDivision else .ok ((a : Rat) / (b : Rat))

/-- What `measure_feature_contribution_to_cluster` returns (index.py:2385), without the group key, which is passed
through. -/
structure Contribution (σ : Type) where
  objective : σ
  removeFeature : List Nat
  removeDelta : List σ
  addFeature : List Nat
  addDelta : List σ

/-- index.py:2296-2300 (also 2325-2328, 2362-2365): `docs = idx[feature]`, restricted to the probe query when that is
truthy; an empty bitmap is falsy. -/
def probed (docs : Nat → Bitmap) (probe : Option Bitmap) (f : Nat) : Bitmap :=
  match probe with
  | some p => if p.card = 0 then docs f else docs f ∩ p
  | none => docs f

/-- The expression for the objective, index.py:2312, 2340-2342, 2371-2373; `n` is the number of features. -/
def objectiveExpr (hits c n : Int) : Except Err Rat := do
  let a ← pyDiv hits (c + n)
  let b ← pyDiv hits (hits + n)
  return a - b

/-- The accumulators of the first phase, index.py:2276-2282. -/
structure Cover where
  union : Bitmap := ∅
  twice : Bitmap := ∅
  hits : Int := 0

/-- The loop of the first phase, index.py:2296-2307. -/
def coverLoop (docs : Nat → Bitmap) (group : List Nat) : Cover :=
  group.foldl (fun a f => ⟨a.union ∪ docs f, a.twice ∪ (a.union ∩ docs f), a.hits + (docs f).card⟩) {}

/-- Second phase, index.py:2324-2354: the score of a feature of the cluster. -/
def removeScore (docs : Nat → Bitmap) (cov : Cover) (n : Int) (objective : Rat) (f : Nat) : Except Err Rat := do
  let onlyOnce := cov.union \ cov.twice
  let c : Int := cov.union.card
  let featureHits : Int := (docs f).card
  let oldHits := cov.hits - featureHits
  let onlyOnceHits : Int := (docs f ∩ onlyOnce).card
  let oldC := c - onlyOnceHits
  let intersects := onlyOnceHits < featureHits
  if oldC ≠ 0 ∧ intersects then
    let old ← objectiveExpr oldHits oldC (n - 1)
    return objective - old
  else if oldC ≠ 0 then return -1
  else return 0

/-- Third phase, index.py:2361-2383: the score of a feature not in the cluster. -/
def addScore (docs : Nat → Bitmap) (cov : Cover) (n : Int) (objective : Rat) (f : Nat) : Except Err Rat := do
  let featureHits : Int := (docs f).card
  if (docs f ∩ cov.union).Nonempty then
    let new ← objectiveExpr (cov.hits + featureHits) ((docs f ∪ cov.union).card : Nat) (n + 1)
    return new - objective
  else return -1

/-- `measure_feature_contribution_to_cluster` (index.py:2245-2385).  `group` lists the feature group in the order in
which Python iterates over the set (arbitrary, the same in both phases); `docs` is `idx[...]`. -/
def measureContribution (docs : Nat → Bitmap) (probe : Option Bitmap) (group : List Nat) (adds : Finset Nat) :
    Except Err (Contribution Rat) :=
  if group.length = 0 then .ok ⟨0, [], [], [], []⟩
  else do
    let docs := probed docs probe
    let cov := coverLoop docs group
    let objective ← objectiveExpr cov.hits cov.union.card group.length
    let removeDelta ← group.mapM (removeScore docs cov group.length objective)
    let addFeature := Bitmap.elems (adds \ group.toFinset)
    let addDelta ← addFeature.mapM (addScore docs cov group.length objective)
    return ⟨objective, group, removeDelta, addFeature, addDelta⟩

section
variable {σ κ : Type} [LinearOrder σ] [LinearOrder κ]

/-- `heapq` on a list: a heap is represented by the ascending list of its content, whose head is what `heap[0]` is.
`heapq.heappush` (used at index.py:1340). -/
def heapPush {α : Type} [LinearOrder α] (h : List α) (x : α) : List α := h.orderedInsert (· ≤ ·) x

/-- `heapq.heappushpop` (used at index.py:1342 and 2229): the heap afterwards. -/
def heapPushPop {α : Type} [LinearOrder α] (h : List α) (x : α) : List α :=
  match h with
  | [] => []
  | y :: t => if y < x then t.orderedInsert (· ≤ ·) x else y :: t

/-- index.py:1338-1342: record a score of a feature. -/
def recordScore (topK : Nat) (test : κ) (best : Dict Nat (List (σ ×ₗ κ))) (fd : Nat × σ) :
    Dict Nat (List (σ ×ₗ κ)) :=
  let h := (best.get? fd.1).getD []
  best.set fd.1 (if h.length < topK then heapPush h (toLex (fd.2, test)) else heapPushPop h (toLex (fd.2, test)))

/-- The scores in a result, in the order they are read, index.py:1337. -/
def Contribution.scores {σ : Type} (r : Contribution σ) : List (Nat × σ) :=
  r.removeFeature.zip r.removeDelta ++ r.addFeature.zip r.addDelta

/-- What the scoring returns: the objective of each tested cluster and the best clusters of each scored feature. -/
abbrev Scores (σ κ : Type) := Dict κ σ × Dict Nat (List (σ ×ₗ κ))

/-- The work submitted to the pool for one cluster, index.py:1315-1326. -/
def scoreCluster (measure : Finset Nat → Finset Nat → Except Err (Contribution σ))
    (cf checks : Dict κ (Finset Nat)) (k : κ) : Except Err (κ × Contribution σ) := do
  let features ← cf.getE k
  let check ← checks.getE k
  let r ← measure features (check \ features)
  return (k, r)

/-- `Index._score_proposed_moves` (index.py:1276-1347).  `measure` stands for
`measure_feature_contribution_to_cluster` run in the pool; results are read in submission order. -/
def scoreProposedMoves (measure : Finset Nat → Finset Nat → Except Err (Contribution σ))
    (cf checks : Dict κ (Finset Nat)) (topK : Nat) : Except Err (Scores σ κ) :=
  if checks.keys.any (fun k => k ∉ cf.keys) then .error .keyError
  else do
    let results ← (checks.keys.insertionSort (· ≤ ·)).mapM (scoreCluster measure cf checks)
    let objectives := results.foldl (fun (d : Dict κ σ) r => d.set r.1 r.2.objective) []
    let best := results.foldl (fun b r => r.2.scores.foldl (recordScore topK r.1) b) []
    return (objectives, best.map (fun e => (e.1, e.2.reverse)))

/-- `set.union(*sets)`; without arguments a `TypeError`. -/
def unionAll : List (Finset Nat) → Except Err (Finset Nat)
  | [] => .error .typeError
  | s :: ss => .ok (ss.foldl (· ∪ ·) s)

/-- index.py:1383-1387: the features of a group of clusters. -/
def groupFeatures (cf : Dict Int (Finset Nat)) (groupKey : List Int) : Except Err (Finset Nat) := do
  let sets ← groupKey.mapM cf.getE
  unionAll sets

/-- index.py:1399-1406: from the best groups of each feature to the clusters to check. -/
def groupChecks (movable : Finset Nat) (best : Dict Nat (List (σ ×ₗ List Int))) : Dict Int (Finset Nat) :=
  best.foldl (fun checks e =>
    if e.1 ∈ movable then
      e.2.foldl (fun checks g => (ofLex g).2.foldl (fun checks c =>
        checks.set c (insert e.1 ((checks.get? c).getD ∅))) checks) checks
    else checks) []

/-- index.py:1364: `movable_features or set.union(*cluster_feature.values())`. -/
def consideredFeatures (cf : Dict Int (Finset Nat)) (movable : Finset Nat) : Except Err (Finset Nat) :=
  if movable.card = 0 then unionAll (cf.map (·.2)) else .ok movable

/-- A dict built by assigning one entry after the other (index.py:1380-1390). -/
def dictOf {ν : Type} (l : List (κ × ν)) : Dict κ ν := l.foldl (fun d e => d.set e.1 e.2) []

/-- index.py:1374-1406: group testing, which selects the clusters to check each feature against. -/
def groupTest (measure : Finset Nat → Finset Nat → Except Err (Contribution σ))
    (cf : Dict Int (Finset Nat)) (clusterIds : List Int) (movable : Finset Nat) (batches groupTopK : Nat) :
    Except Err (Dict Int (Finset Nat)) := do
  let groupKeys := (List.range batches).map (fun i => (everyNth clusterIds i batches).insertionSort (· ≤ ·))
  let features ← groupKeys.mapM (groupFeatures cf)
  let best ← scoreProposedMoves measure (dictOf (groupKeys.zip features))
    (dictOf (groupKeys.map (fun k => (k, movable)))) groupTopK
  return groupChecks movable best.2

/-- index.py:1366-1410: the clusters to check each feature against, with or without group testing. -/
def selectChecks (measure : Finset Nat → Finset Nat → Except Err (Contribution σ))
    (cf : Dict Int (Finset Nat)) (clusterIds : List Int) (movable : Finset Nat) (batches groupTopK : Nat) :
    Except Err (Dict Int (Finset Nat)) :=
  if batches = 0 ∨ 2 * batches > clusterIds.length then .ok (clusterIds.map (fun c => (c, movable)))
  else groupTest measure cf clusterIds movable batches groupTopK

/-- `Index._find_best_moves` (index.py:1349-1417).  `clusterIds` is the shuffled list of the keys; `batches = 0` stands for
`None`; `top_k` has its default 1, the only value used. -/
def findBestMoves (measure : Finset Nat → Finset Nat → Except Err (Contribution σ))
    (cf : Dict Int (Finset Nat)) (clusterIds : List Int) (movable : Finset Nat) (batches groupTopK : Nat) :
    Except Err (Scores σ Int) := do
  let considered ← consideredFeatures cf movable
  let checks ← selectChecks measure cf clusterIds considered batches groupTopK
  scoreProposedMoves measure cf checks 1

end
end Hyperreal
