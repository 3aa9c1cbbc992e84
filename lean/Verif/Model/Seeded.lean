import Verif.Model.Refine

/-!
# The index's own random generator (index.py:157) in `initialise_clusters` and `refine_clusters`

`Verif.Model.Refine` takes the outcomes of random draws as given (`Chance`).  Here the draws come from a generator whose
state is carried through the code, draw by draw, and the scoring is done by workers that iterate over the sets sent to
them in orders of their own.
-/

namespace Hyperreal

/-- `random.Random` as used by the index: a state, and what each kind of draw gives and leaves.  `seed` is
`random.Random(random_seed)` (index.py:157) for a given seed. -/
structure Generator (ρ : Type) where
  seed : Int → ρ
  /-- `random()`. -/
  random : ρ → Rat × ρ
  /-- `shuffle(l)`: the positions of a list of this length in their new order. -/
  shuffle : Nat → ρ → List Nat × ρ
  shuffle_perm : ∀ n s, (shuffle n s).1.Perm (List.range n)
  /-- `choice(l)`: the position chosen in a list of this length. -/
  choose : Nat → ρ → Nat × ρ

/-- A computation that draws from the generator and may raise; draws made before an exception stay made. -/
def Draw (ρ α : Type) : Type := ρ → Except Err α × ρ

instance (ρ : Type) : Monad (Draw ρ) where
  pure a := fun s => (.ok a, s)
  bind x f := fun s =>
    match x s with
    | (.ok a, s') => f a s'
    | (.error e, s') => (.error e, s')

/-- A computation that draws nothing. -/
def Draw.lift {ρ α : Type} (x : Except Err α) : Draw ρ α := fun s => (x, s)

/-- The order in which Python iterates over the sets of the calling process.  For sets of integers it is determined by what
was done to the set; simplification: it is an arbitrary function of the step and of the content. -/
structure Layout where
  /-- index.py:1533: the features of the cluster that is split, in the `i`-th split. -/
  features : Nat → Finset Nat → List Nat
  features_perm : ∀ i s, (features i s).Perm (Bitmap.elems s)
  /-- index.py:1515: `list(movable_features)`. -/
  movable : Finset Nat → List Nat
  movable_perm : ∀ s, (movable s).Perm (Bitmap.elems s)
  /-- index.py:1575: the clusters that may be dissolved in an iteration. -/
  candidates : Nat → List Int → List Int
  candidates_perm : ∀ i l, (candidates i l).Perm l
  /-- index.py:1584: `list(set(cluster_feature) - dissolve_cluster_ids)` in an iteration. -/
  possible : Nat → List Int → List Int
  possible_perm : ∀ i l, (possible i l).Perm l

/-- The order in which the worker that gets the job with this group and these features to add iterates over the group
(index.py:2295, 2323), in an iteration: the set is rebuilt in the worker's process. -/
structure Workers where
  order : Nat → Finset Nat → Finset Nat → List Nat
  order_perm : ∀ i g a, (order i g a).Perm (Bitmap.elems g)

section
variable {ρ : Type} (g : Generator ρ)

/-- `self.random.shuffle(l)` (index.py:965, 1362, 1590). -/
def Generator.shuffled {α : Type} (l : List α) : Draw ρ (List α) := fun s =>
  (.ok ((g.shuffle l.length s).1.filterMap (fun i => l[i]?)), (g.shuffle l.length s).2)

/-- `self.random.random() < p` (index.py:1535, 1596). -/
def Generator.below (p : Rat) : Draw ρ Bool := fun s => (.ok (decide ((g.random s).1 < p)), (g.random s).2)

/-- `self.random.choice(l)` (index.py:1606): an empty list raises `IndexError` before anything is drawn. -/
def Generator.chosen (l : List Int) : Draw ρ Int := fun s =>
  if l.length = 0 then (.error .indexError, s)
  else (choice l (g.choose l.length s).1, (g.choose l.length s).2)

/-- index.py:1532-1536: the features that are split off, drawing for each feature. -/
def drawSplit (pinned : Finset Nat) : List Nat → Draw ρ (Finset Nat)
  | [] => pure ∅
  | f :: fs => do
    let head ← g.below (1 / 2)
    let rest ← drawSplit pinned fs
    return if head = true ∧ f ∉ pinned then insert f rest else rest

/-- index.py:1528-1540, drawing. -/
def splitLargestDraw (lay : Layout) (i : Nat) (pinned : Finset Nat) (new : Int) (st : Assignment) : Draw ρ Assignment :=
  match largestCluster st.cf with
  | none => Draw.lift (.error .valueError)
  | some (big, features) => do
    let split ← drawSplit g pinned (lay.features i features)
    let cf := st.cf.set new split
    let rest ← Draw.lift (cf.getE big)
    let cf := cf.set big (rest \ split)
    return ⟨cf, (Bitmap.elems split).foldl (fun fc f => fc.set f new) st.fc⟩

/-- index.py:1527-1540, drawing. -/
def splitAllDraw (lay : Layout) (pinned : Finset Nat) : Nat → List Int → Assignment → Draw ρ Assignment
  | _, [], st => pure st
  | i, new :: rest, st => do
    let st ← splitLargestDraw g lay i pinned new st
    splitAllDraw lay pinned (i + 1) rest st

/-- index.py:1604-1606, drawing. -/
def rehomeDraw (dissolve possible : List Int) (dst : Int) : Draw ρ Int :=
  if dst ∈ dissolve then g.chosen possible else pure dst

/-- index.py:1592-1630, drawing: the acceptance is drawn for every feature, before it is known whether it is needed. -/
def moveOneDraw {σ : Type} (best : Dict Nat (List (σ ×ₗ Int))) (dissolve possible : List Int) (minFeatures : Nat)
    (p : Rat) (st : Assignment × Nat) (f : Nat) : Draw ρ (Assignment × Nat) := do
  let dst ← Draw.lift (bestMove best f)
  let cur ← Draw.lift (st.1.fc.getE f)
  let accept ← g.below p
  if cur ∈ dissolve then
    let dst ← rehomeDraw g dissolve possible dst
    let a ← Draw.lift (doMove f cur dst st.1)
    return (a, st.2 + 1)
  else if dst ∈ dissolve then return st
  else if cur = dst then return st
  else do
    let features ← Draw.lift (st.1.cf.getE cur)
    if features.card = minFeatures then return st
    else if accept = true then do
      let a ← Draw.lift (doMove f cur dst st.1)
      return (a, st.2 + 1)
    else return (st.1, st.2 + 1)

/-- index.py:1592-1630: the loop over the features. -/
def movesDraw {σ : Type} (best : Dict Nat (List (σ ×ₗ Int))) (dissolve possible : List Int) (minFeatures : Nat)
    (p : Rat) : Assignment × Nat → List Nat → Draw ρ (Assignment × Nat)
  | st, [] => pure st
  | st, f :: fs => do
    let st ← moveOneDraw g best dissolve possible minFeatures p st f
    movesDraw best dissolve possible minFeatures p st fs

/-- What stays fixed during the loop; `score i clusterIds cf` is what the workers compute in iteration `i` for the shuffled
cluster ids. -/
structure DrawCtx (σ : Type) where
  score : Nat → List Int → Clustering → Except Err (Scores σ Int)
  layout : Layout
  p : Rat
  minFeatures : Nat
  tolerance : Rat
  withPins : List Int
  movable : Finset Nat
  perIteration : Nat

/-- index.py:1554-1635, drawing.  `visit` is `movable_feature_list`, which is shuffled in place and so carried on. -/
def refineStepDraw {σ : Type} [LinearOrder σ] (ctx : DrawCtx σ) (i dissolve : Nat) (visit : List Nat) (st : Assignment) :
    Draw ρ (Assignment × Nat × List Int × List Nat) := do
  let clusterIds ← g.shuffled st.cf.keys
  let scores ← Draw.lift (ctx.score i clusterIds st.cf)
  let ids ← Draw.lift (toDissolve scores.1 (ctx.layout.candidates i (st.cf.keys.filter (· ∉ ctx.withPins))) dissolve
    ctx.perIteration)
  let possible := ctx.layout.possible i (st.cf.keys.filter (· ∉ ids))
  let visit ← g.shuffled visit
  let r ← movesDraw g scores.2 ids possible ctx.minFeatures ctx.p (st, 0) visit
  let cf ← Draw.lift (removeDissolved ids r.1.cf)
  return (⟨cf, r.1.fc⟩, r.2, ids, visit)

/-- index.py:1553-1649, drawing. -/
def refineLoopDraw {σ : Type} [LinearOrder σ] (ctx : DrawCtx σ) :
    Nat → Nat → Nat → List Nat → Assignment → Draw ρ Assignment
  | 0, _, _, _, st => pure st
  | n + 1, i, dissolve, visit, st => do
    let r ← refineStepDraw g ctx i dissolve visit st
    let dissolve' := dissolve - min dissolve ctx.perIteration
    if r.2.2.1 = [] then
      if ctx.movable.card = 0 then Draw.lift (.error .zeroDivision)
      else if (r.2.1 : Rat) / (ctx.movable.card : Rat) < ctx.tolerance then return r.1
      else refineLoopDraw ctx n (i + 1) dissolve' r.2.2.2 r.1
    else refineLoopDraw ctx n (i + 1) dissolve' r.2.2.2 r.1

/-- `Index._refine_feature_groups` (index.py:1419-1649), drawing. -/
def refineGroupsDraw {σ : Type} [LinearOrder σ]
    (score : Finset Nat → Nat → List Int → Clustering → Except Err (Scores σ Int))
    (lay : Layout) (p : Rat) (cfg : GroupCfg) (pinned : Finset Nat) (cf : Clustering) : Draw ρ (Clustering × List Int) :=
  let target := orDefault cfg.target cf.length
  if cf.length = 0 then pure (cf, [])
  else if cf.length = 1 ∧ target = 1 then pure (cf, [])
  else do
    let withPins := (cf.filter (fun e => (e.2 ∩ pinned).Nonempty)).map (·.1)
    let movable := movableOf cf pinned
    let newIds := rangeFrom (nextLocalId cf) (target - cf.length)
    let st ← splitAllDraw g lay pinned 0 newIds ⟨cf, invert cf⟩
    let dissolve := ((st.cf.length : Int) - target).toNat
    let rounds := max 1 (cfg.iterations - 1)
    let perIteration := (dissolve + rounds - 1) / rounds
    let ctx : DrawCtx σ := ⟨score movable, lay, p, cfg.minFeatures, cfg.tolerance, withPins, movable, perIteration⟩
    let st ← refineLoopDraw g ctx cfg.iterations 0 dissolve (lay.movable movable) st
    return (st.cf, newIds)

/-- The jobs done by the workers: `_find_best_moves` (index.py:1349-1417) with each group iterated over in the worker's own
order. -/
def workerScore (ws : Workers) (args : RefineArgs) (db : DB) (batches : Nat) (movable : Finset Nat) (i : Nat)
    (clusterIds : List Int) (cf : Clustering) : Except Err (Scores Rat Int) :=
  findBestMoves (fun group adds => measureContribution db.docsOf args.probe (ws.order i group adds) adds) cf
    clusterIds movable batches args.groupTopK

/-- `Index.refine_clusters` (index.py:1651-1747) up to the final `_update_cluster_feature`, drawing; `p` is
`move_acceptance_probability`. -/
def refinePlanDraw (lay : Layout) (ws : Workers) (p : Rat) (args : RefineArgs) (db : DB) : Draw ρ (List (Int × List Nat)) :=
  if args.iterations < 1 then Draw.lift (.error .valueError)
  else do
    let cf := selectClusters args db
    let pinned := selectPinned args db
    let target := orDefault args.target cf.length
    let dropped := dropPinned (pinnedClusterIds db) cf
    let batches := args.groupBatches.getD (autoBatches dropped.1.length)
    let cfg : GroupCfg := ⟨args.iterations.toNat, args.minFeatures, args.tolerance, some (target - dropped.2)⟩
    let r ← refineGroupsDraw g (workerScore ws args db batches) lay p cfg pinned dropped.1
    let saved ← Draw.lift (r.2.mapM (fun c => do
      let s ← r.1.getE c
      pure (c, s)))
    let cf ← Draw.lift (remap saved r.2 (nextClusterId db) r.1)
    return cf.map (fun e => (e.1, Bitmap.elems e.2))

/-- The public calls that edit the model, as a user of one `Index` object makes them: the two that draw, and the others. -/
inductive UserCall where
  | initialise (n minDocs : Nat) (fields : List String)
  | refine (p : Rat) (args : RefineArgs)
  | other (op : ModelOp)

/-- The features dealt out by `initialise_clusters` in a database (index.py:940-963). -/
def featuresDealt (minDocs : Nat) (fields : List String) (db : DB) : List (Nat × Nat) :=
  selectFeatures db minDocs (if fields.isEmpty then db.fieldSummary.map (·.field) else fields)

/-- The call with the draws filled in, in the given state of the generator. -/
def UserCall.op (lay : Layout) (ws : Workers) (s : ρ) : UserCall → ModelOp
  | .initialise n m fs => .initialise n m fs (fun l => (g.shuffle l.length s).1.filterMap (fun i => l[i]?))
  | .refine p args => .refine (fun db => (refinePlanDraw g lay ws p args db s).1)
  | .other op => op

/-- The state of the generator after the call; `db` is what the call reads. -/
def UserCall.after (lay : Layout) (ws : Workers) (s : ρ) (db : DB) : UserCall → ρ
  | .initialise _ m fs => (g.shuffle (featuresDealt m fs db).length s).2
  | .refine p args => (refinePlanDraw g lay ws p args db s).2
  | .other _ => s

/-- One call on an `Index` object: its connection and its generator. -/
def UserCall.exec (lay : Layout) (ws : Workers) (fault : Option Err) (call : UserCall) (x : Atomic.Conn DB × ρ) :
    (Atomic.Conn DB × ρ) × Except Err Ret :=
  let r := (call.op g lay ws x.2).exec fault x.1
  ((r.1, call.after g lay ws x.2 x.1.work), r.2)

/-- A sequence of calls on one `Index` object, with the answers; `ws` are the workers in each call. -/
def userSession (lay : Layout) (ws : Nat → Workers) : Nat → List (UserCall × Option Err) → Atomic.Conn DB × ρ →
    (Atomic.Conn DB × ρ) × List (Except Err Ret)
  | _, [], x => (x, [])
  | i, (call, fault) :: rest, x =>
    let r := call.exec g lay (ws i) fault x
    let t := userSession lay ws (i + 1) rest r.1
    (t.1, r.2 :: t.2)

end
end Hyperreal
