import Verif.Model.Cli
import Verif.Model.Server

/-!
# The actions of the web server (server.py:171-306, 426-543)

Every request opens the index file anew and closes it at the end (server.py:22-34); the response is a redirect or an error.
Parameters are taken as already converted (`int(...)`).
-/

namespace Hyperreal.Web
open Atomic Cli

variable {σ : Type} [LinearOrder σ]

/-- The POST requests; lists are those made by `ensure_list` (server.py:37-49), `[]` when the parameter is missing. -/
inductive Action where
  | delete (cids : List Int) (returnTo : Option Int)
  | create (fids : List Nat)
  | merge (cids : List Int)
  | refine (cids : List Int) (target : Option Int) (iterations : Int) (minFeatures : Nat) (toCluster : Bool)
  | pin (cids : List Int) (pinned : Bool) (toCluster : Bool)
  | removeFeatures (fids : List Nat) (cluster : Option Int)
  | pinFeatures (fids : List Nat) (pinned : Bool) (cluster : Option Int)
  | recreateModel (fields : List String) (minDocs : Nat) (clusters : Int) (iterations : Int) (minFeatures : Nat)
  | refineModel (target : Option Int) (iterations : Int) (minFeatures : Nat)

/-- A redirect to a cluster page, to the index page (with a cluster as its query), or an error page. -/
inductive Response where
  | cluster (c : Int)
  | index (query : Option Int)
  | failed (e : Err)
  deriving DecidableEq

/-- A redirect to the cluster, if one is given. -/
def toClusterOr : Option Int → Response
  | some c => .cluster c
  | none => .index none

/-- The redirect after `cluster_id[0]` (server.py:246-251, 266-271): without a cluster an `IndexError`. -/
def toFirst (cids : List Int) (toCluster : Bool) : Response :=
  match cids with
  | [] => .failed .indexError
  | c :: _ => if toCluster then .cluster c else .index (some c)

/-- The redirect to the cluster a method returned (server.py:209-212, 218-221). -/
def toReturned : Ret → Response
  | .id c => .cluster c
  | _ => .failed .typeError

/-- The call(s) of the index an action makes, in order, and the redirect for the value the last one returns. -/
def Action.plan (luck : Luck σ) : Action → List ModelOp × (Ret → Response)
  -- server.py:193-203
  | .delete cids returnTo => ([.deleteClusters cids], fun _ => toClusterOr returnTo)
  -- server.py:205-212
  | .create fids => ([.create fids], toReturned)
  -- server.py:214-221
  | .merge cids => ([.merge cids], toReturned)
  -- server.py:223-251
  | .refine cids target iterations minFeatures toCluster =>
    let args : RefineArgs := { clusterIds := cids, target := target, iterations := iterations, minFeatures := minFeatures }
    ([refineClusters (luck.score args) luck.chance args], fun _ => toFirst cids toCluster)
  -- server.py:253-271
  | .pin cids pinned toCluster => ([.pinClusters cids pinned], fun _ => toFirst cids toCluster)
  -- server.py:279-287
  | .removeFeatures fids cluster => ([.deleteFeatures fids], fun _ => toClusterOr cluster)
  -- server.py:289-306
  | .pinFeatures fids pinned cluster => ([.pinFeatures fids pinned], fun _ => toClusterOr cluster)
  -- server.py:489-518
  | .recreateModel fields minDocs clusters iterations minFeatures =>
    let args : RefineArgs := { iterations := iterations, minFeatures := minFeatures }
    ([.initialise clusters.toNat minDocs fields luck.shuffle, refineClusters (luck.score args) luck.chance args],
      fun _ => .index none)
  -- server.py:520-543
  | .refineModel target iterations minFeatures =>
    let args : RefineArgs := { target := target, iterations := iterations, minFeatures := minFeatures }
    ([refineClusters (luck.score args) luck.chance args], fun _ => .index none)

/-- Make the calls one after the other, up to the first that raises; `fault` are failures of the worker pool. -/
def calls (fault : Nat → Option Err) : Nat → List ModelOp → Conn DB → Conn DB × Except Err Ret
  | _, [], c => (c, .ok .none)
  | i, [op], c => op.exec (fault i) c
  | i, op :: ops, c =>
    match op.exec (fault i) c with
    | (c, .ok _) => calls fault (i + 1) ops c
    | (c, .error e) => (c, .error e)

/-- A request: open the file, make the calls, close it, answer (server.py:22-34 and the actions). -/
def Action.perform (luck : Luck σ) (fault : Nat → Option Err) (a : Action) (db : DB) : DB × Response :=
  match calls fault 0 (a.plan luck).1 (Conn.fresh db) with
  | (c, .ok v) => (c.close, (a.plan luck).2 v)
  | (c, .error e) => (c.close, .failed e)

/-- One request after the other, each with its own draws and failures. -/
def serve : List (Action × Luck σ × (Nat → Option Err)) → DB → DB
  | [], db => db
  | r :: rs, db => serve rs (r.1.perform r.2.1 r.2.2 db).1

/-- `search` (server.py:171-184 and 426-445): the value of the form is always a text. -/
def search (db : DB) (field value : String) : Except Err Nat := lookupFeatureId db field (.text value)

end Hyperreal.Web
