import Verif.Model.Scoring

/-!
# Iterative refinement of the clustering (index.py:1419-1747)

Random draws are given by a `Chance`; every sequence of draws is covered because the theorems hold for all of them.
Scores are given by a scoring function; the code's is `exactScorer`.
-/

namespace Hyperreal

/-- A clustering: cluster id to set of features. -/
abbrev Clustering := Dict Int (Finset Nat)

/-- The outcomes of the random draws, and of the iteration order of Python sets where it can matter. -/
structure Chance where
  /-- index.py:1535: does the draw send the feature to the `i`-th new cluster? -/
  coin : Nat → Nat → Bool
  /-- index.py:1590: the order in which features are visited in an iteration. -/
  order : Nat → List Nat → List Nat
  order_perm : ∀ i l, (order i l).Perm l
  /-- index.py:1596: `self.random.random() < move_acceptance_probability` in an iteration, for a feature. -/
  accept : Nat → Nat → Bool
  /-- index.py:1606: which element `random.choice` takes in an iteration, for a feature. -/
  pick : Nat → Nat → Nat
  /-- index.py:1362: the shuffled cluster ids of an iteration. -/
  clusterOrder : Nat → List Int → List Int
  clusterOrder_perm : ∀ i l, (clusterOrder i l).Perm l
  /-- index.py:1574-1578: the iteration order of the set of clusters that may be dissolved, which decides ties. -/
  setOrder : Nat → List Int → List Int
  setOrder_perm : ∀ i l, (setOrder i l).Perm l

/-- `x or default` for an optional integer: `None` and 0 are falsy. -/
def orDefault (x : Option Int) (d : Int) : Int :=
  match x with
  | some v => if v = 0 then d else v
  | none => d

/-- `max((len(features), cluster_id, features) for ...)` (index.py:1528-1531): cluster ids are distinct, so the third
component never decides.  `none` for an empty dict (never happens: `ValueError`). -/
def largestCluster (cf : Clustering) : Option (Int × Finset Nat) :=
  cf.foldl (fun acc e =>
    match acc with
    | none => some e
    | some b => if b.2.card < e.2.card ∨ (b.2.card = e.2.card ∧ b.1 ≤ e.1) then some e else some b) none

/-- The mutable state of the refinement: `cluster_feature` and `feature_cluster`. -/
structure Assignment where
  cf : Clustering
  fc : Dict Nat Int

/-- index.py:1528-1540: split the largest cluster into the new cluster `new`. -/
def splitLargest (coin : Nat → Bool) (pinned : Finset Nat) (new : Int) (st : Assignment) : Except Err Assignment :=
  match largestCluster st.cf with
  | none => .error .valueError
  | some (big, features) => do
    let split := features.filter (fun f => coin f = true ∧ f ∉ pinned)
    let cf := st.cf.set new split
    let rest ← cf.getE big
    let cf := cf.set big (rest \ split)
    return ⟨cf, (Bitmap.elems split).foldl (fun fc f => fc.set f new) st.fc⟩

/-- index.py:1527-1540: the loop over the new cluster ids. -/
def splitAll (coin : Nat → Nat → Bool) (pinned : Finset Nat) : Nat → List Int → Assignment → Except Err Assignment
  | _, [], st => .ok st
  | i, new :: rest, st => do
    let st ← splitLargest (coin i) pinned new st
    splitAll coin pinned (i + 1) rest st

/-- index.py:1626-1628: move a feature. -/
def doMove (f : Nat) (cur dst : Int) (st : Assignment) : Except Err Assignment := do
  let a ← st.cf.getE cur
  let cf := st.cf.set cur (a.erase f)
  let b ← cf.getE dst
  let cf := cf.set dst (insert f b)
  return ⟨cf, st.fc.set f dst⟩

/-- `random.choice(l)`: an empty list raises `IndexError`. -/
def choice (l : List Int) (i : Nat) : Except Err Int :=
  match l[i % l.length]? with
  | some x => .ok x
  | none => .error .indexError

/-- `best_moves[feature_id][0]` (index.py:1593). -/
def bestMove {σ : Type} (best : Dict Nat (List (σ ×ₗ Int))) (f : Nat) : Except Err Int := do
  let l ← best.getE f
  match l with
  | [] => .error .indexError
  | x :: _ => .ok (ofLex x).2

/-- index.py:1600-1606: where a feature of a dissolving cluster goes. -/
def rehome (dissolve possible : List Int) (dst : Int) (i : Nat) : Except Err Int :=
  if dst ∈ dissolve then choice possible i else .ok dst

/-- index.py:1592-1630: consider moving one feature.  The counter is `possible_moves`.  `actual_moves` and
`changed_clusters` are only logged and left out. -/
def moveOne {σ : Type} (best : Dict Nat (List (σ ×ₗ Int))) (dissolve possible : List Int) (minFeatures : Nat)
    (accept : Nat → Bool) (pick : Nat → Nat) (st : Assignment × Nat) (f : Nat) : Except Err (Assignment × Nat) := do
  let dst ← bestMove best f
  let cur ← st.1.fc.getE f
  if cur ∈ dissolve then
    let dst ← rehome dissolve possible dst (pick f)
    let a ← doMove f cur dst st.1
    return (a, st.2 + 1)
  else if dst ∈ dissolve then return st
  else if cur = dst then return st
  else do
    let features ← st.1.cf.getE cur
    if features.card = minFeatures then return st
    else if accept f then do
      let a ← doMove f cur dst st.1
      return (a, st.2 + 1)
    else return (st.1, st.2 + 1)

/-- index.py:1632-1635: remove the dissolved clusters. -/
def removeDissolved : List Int → Clustering → Except Err Clustering
  | [], cf => .ok cf
  | c :: cs, cf => do
    let s ← cf.getE c
    if s.card ≠ 0 then .error .valueError
    else do
      let cf ← cf.delE c
      removeDissolved cs cf

/-- index.py:1573-1578: the `n` clusters with the lowest objective among those without
pinned features; a cluster without a known objective raises `KeyError`. -/
def lowest {σ : Type} [LinearOrder σ] (objectives : Dict Int σ) (candidates : List Int) (n : Nat) :
    Except Err (List Int) := do
  let scored ← candidates.mapM (fun c => do
    let o ← objectives.getE c
    pure (o, c))
  return ((scored.insertionSort (fun a b => a.1 ≤ b.1)).take n).map (·.2)

/-- index.py:1570-1583: the clusters to dissolve in this iteration, if any. -/
def toDissolve {σ : Type} [LinearOrder σ] (objectives : Dict Int σ) (candidates : List Int) (dissolve per : Nat) :
    Except Err (List Int) :=
  if dissolve = 0 then .ok [] else lowest objectives candidates (min dissolve per)

/-- What stays fixed during the loop. -/
structure RefineCtx (σ : Type) where
  score : Nat → Clustering → Except Err (Scores σ Int)
  chance : Chance
  minFeatures : Nat
  tolerance : Rat
  withPins : List Int
  movable : Finset Nat
  perIteration : Nat

/-- index.py:1554-1635: one iteration up to the removal of the dissolved clusters.  Returns the assignment, the number of
possible moves and the dissolved clusters. -/
def refineStep {σ : Type} [LinearOrder σ] (ctx : RefineCtx σ) (i dissolve : Nat) (st : Assignment) :
    Except Err (Assignment × Nat × List Int) := do
  let scores ← ctx.score i st.cf
  let ids ← toDissolve scores.1 (ctx.chance.setOrder i (st.cf.keys.filter (· ∉ ctx.withPins))) dissolve ctx.perIteration
  let possible := st.cf.keys.filter (· ∉ ids)
  let r ← (ctx.chance.order i (Bitmap.elems ctx.movable)).foldlM
    (moveOne scores.2 ids possible ctx.minFeatures (ctx.chance.accept i) (ctx.chance.pick i)) (st, 0)
  let cf ← removeDissolved ids r.1.cf
  return (⟨cf, r.1.fc⟩, r.2, ids)

/-- index.py:1553-1649: the iterations; `dissolve` is the number of clusters still to dissolve. -/
def refineLoop {σ : Type} [LinearOrder σ] (ctx : RefineCtx σ) :
    Nat → Nat → Nat → Assignment → Except Err Assignment
  | 0, _, _, st => .ok st
  | n + 1, i, dissolve, st => do
    let r ← refineStep ctx i dissolve st
    let dissolve' := dissolve - min dissolve ctx.perIteration
    if r.2.2 = [] then
      if ctx.movable.card = 0 then .error .zeroDivision
      else if (r.2.1 : Rat) / (ctx.movable.card : Rat) < ctx.tolerance then .ok r.1
      else refineLoop ctx n (i + 1) dissolve' r.1
    else refineLoop ctx n (i + 1) dissolve' r.1

/-- `max(cluster_feature) + 1` (index.py:1523). -/
def nextLocalId (cf : Clustering) : Int :=
  match cf.keys with
  | [] => 1
  | c :: cs => cs.foldl max c + 1

/-- `list(range(a, a + n))`; empty for negative `n` (index.py:1525). -/
def rangeFrom (a n : Int) : List Int := (List.range n.toNat).map (fun (i : Nat) => a + (i : Int))

/-- index.py:1493-1497: the initial `feature_cluster`. -/
def invert (cf : Clustering) : Dict Nat Int :=
  cf.foldl (fun d e => (Bitmap.elems e.2).foldl (fun d f => d.set f e.1) d) []

/-- index.py:1508-1513: the movable features. -/
def movableOf (cf : Clustering) (pinned : Finset Nat) : Finset Nat :=
  (cf.foldl (fun (s : Finset Nat) e => s ∪ e.2) ∅).filter (· ∉ pinned)

/-- The parameters of the refinement of feature groups. -/
structure GroupCfg where
  iterations : Nat
  minFeatures : Nat
  tolerance : Rat
  target : Option Int

/-- `Index._refine_feature_groups` (index.py:1419-1649).  `score movable i cf` is `_find_best_moves` in iteration `i`. -/
def refineGroups {σ : Type} [LinearOrder σ] (score : Finset Nat → Nat → Clustering → Except Err (Scores σ Int))
    (ch : Chance) (cfg : GroupCfg) (pinned : Finset Nat) (cf : Clustering) : Except Err (Clustering × List Int) :=
  let target := orDefault cfg.target cf.length
  if cf.length = 0 then .ok (cf, [])
  else if cf.length = 1 ∧ target = 1 then .ok (cf, [])
  else do
    let withPins := (cf.filter (fun e => (e.2 ∩ pinned).Nonempty)).map (·.1)
    let movable := movableOf cf pinned
    let newIds := rangeFrom (nextLocalId cf) (target - cf.length)
    let st ← splitAll ch.coin pinned 0 newIds ⟨cf, invert cf⟩
    let dissolve := ((st.cf.length : Int) - target).toNat
    let rounds := max 1 (cfg.iterations - 1)
    let perIteration := (dissolve + rounds - 1) / rounds
    let ctx : RefineCtx σ := ⟨score movable, ch, cfg.minFeatures, cfg.tolerance, withPins, movable, perIteration⟩
    let st ← refineLoop ctx cfg.iterations 0 dissolve st
    return (st.cf, newIds)

/-- The arguments of `Index.refine_clusters`; `move_acceptance_probability` only acts through `Chance.accept`. -/
structure RefineArgs where
  iterations : Int := 10
  clusterIds : List Int := []
  minFeatures : Nat := 1
  probe : Option Bitmap := none
  target : Option Int := none
  tolerance : Rat := 1 / 20
  groupBatches : Option Nat := none
  groupTopK : Nat := 2

/-- index.py:1676, 1684-1698: the clusters to refine, read from the model, before pinned clusters are removed. -/
def selectClusters (args : RefineArgs) (db : DB) : Clustering :=
  let ids := if args.clusterIds = [] then db.clusters.map (·.cid) else args.clusterIds
  db.fc.foldl (fun d r => if r.cid ∈ ids then d.set r.cid (insert r.fid ((d.get? r.cid).getD ∅)) else d) []

/-- index.py:1684-1699: the pinned features of these clusters. -/
def selectPinned (args : RefineArgs) (db : DB) : Finset Nat :=
  let ids := if args.clusterIds = [] then db.clusters.map (·.cid) else args.clusterIds
  ((db.fc.filter (fun r => r.cid ∈ ids ∧ r.pinned = true)).map (·.fid)).toFinset

/-- `pinned_cluster_ids` (index.py:1109-1116). -/
def pinnedClusterIds (db : DB) : List Int := (db.clusters.filter (·.pinned)).map (·.cid)

/-- index.py:1709-1714: drop the pinned clusters, counting them. -/
def dropPinned (pinned : List Int) (cf : Clustering) : Clustering × Nat :=
  pinned.foldl (fun s c => if c ∈ s.1.keys then (s.1.filter (fun e => e.1 ≠ c), s.2 + 1) else s) (cf, 0)

/-- index.py:1735-1744: save the new clusters under globally unique ids. -/
def remap (saved : Clustering) : List Int → Int → Clustering → Except Err Clustering
  | [], _, cf => .ok cf
  | c :: cs, next, cf => do
    let cf ← cf.delE c
    let s ← saved.getE c
    remap saved cs (next + 1) (cf.set next s)

/-- index.py:1716-1717: `math.ceil(len(cluster_feature) * 0.1)`, exact; with floats the result can be one more (30 gives
4). -/
def autoBatches (n : Nat) : Nat := (n + 9) / 10

/-- `Index.refine_clusters` (index.py:1651-1747) up to the final `_update_cluster_feature`: what it computes from the
database it reads.  `score batches movable i cf` is `_find_best_moves` in iteration `i`. -/
def refinePlan {σ : Type} [LinearOrder σ]
    (score : DB → Nat → Finset Nat → Nat → Clustering → Except Err (Scores σ Int))
    (ch : Chance) (args : RefineArgs) (db : DB) : Except Err (List (Int × List Nat)) :=
  if args.iterations < 1 then .error .valueError
  else do
    let cf := selectClusters args db
    let pinned := selectPinned args db
    let target := orDefault args.target cf.length
    let dropped := dropPinned (pinnedClusterIds db) cf
    let batches := args.groupBatches.getD (autoBatches dropped.1.length)
    let cfg : GroupCfg := ⟨args.iterations.toNat, args.minFeatures, args.tolerance, some (target - dropped.2)⟩
    let r ← refineGroups (score db batches) ch cfg pinned dropped.1
    let saved ← r.2.mapM (fun c => do
      let s ← r.1.getE c
      pure (c, s))
    let cf ← remap saved r.2 (nextClusterId db) r.1
    return cf.map (fun e => (e.1, Bitmap.elems e.2))

/-- The scoring the code uses, with exact arithmetic: `_find_best_moves` over the committed inverted index. -/
def exactScorer (ch : Chance) (args : RefineArgs) (db : DB) (batches : Nat) (movable : Finset Nat) (i : Nat)
    (cf : Clustering) : Except Err (Scores Rat Int) :=
  findBestMoves (fun group adds => measureContribution db.docsOf args.probe (Bitmap.elems group) adds) cf
    (ch.clusterOrder i cf.keys) movable batches args.groupTopK

/-- `Index.refine_clusters` as a public call. -/
def refineClusters {σ : Type} [LinearOrder σ]
    (score : DB → Nat → Finset Nat → Nat → Clustering → Except Err (Scores σ Int)) (ch : Chance) (args : RefineArgs) :
    ModelOp := .refine (refinePlan score ch args)

end Hyperreal
