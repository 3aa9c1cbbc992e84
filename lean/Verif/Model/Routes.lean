import Verif.Model.WebActions
import Verif.Model.Csv

/-!
# Requests, links and forms of the web server (server.py, templates/*.html)

`Verif.Model.Server` and `Verif.Model.WebActions` have the views and the actions on parameters that are already converted.
Here is what is before and after them: the URL of a request is taken apart, the handler is found, its parameters are
converted, and the pages contain links and forms, which are URLs and parameters again.

CherryPy finds handlers as follows: the parts of the path are attributes of the mounted objects (server.py:623-659); a part
that is no attribute is an argument (`popargs`, server.py:187, 309, 546); at the end of the path the `index` method is
called, after a redirect if the path does not end with a slash.  Simplifications: percent-encoding is left out (the links
contain nothing that needs it, and parameters of forms are taken as decoded); paths through attributes of Python objects
that are no handlers (`__class__` and the like), and those that name `index` explicitly, are left out; a parameter that must be a number is converted before anything
else is done, whether or not the handler then uses it; a repeated parameter that should be given once is refused, as are
negative numbers for feature ids and for counts.
-/

namespace Hyperreal.Web
open Atomic Cli

/-- A request: is it a POST, its URL, and the parameters a form sends along (in the body of a POST, else with the query). -/
structure Request where
  post : Bool
  url : String
  form : List (String × String) := []

/-- Following a link. -/
def Request.get (url : String) : Request := { post := false, url := url }

/-- The path of the URL. -/
def urlPath (url : String) : List Char := url.toList.takeWhile (· ≠ '?')

/-- The parts of the path; empty ones do not count. -/
def urlParts (url : String) : List String := (((urlPath url).splitOnP (· == '/')).filter (· ≠ [])).map String.ofList

/-- Does the path end with a slash? -/
def urlSlash (url : String) : Bool := (urlPath url).getLast? == some '/'

/-- What follows the question mark. -/
def urlQuery (url : String) : List Char := (url.toList.dropWhile (· ≠ '?')).drop 1

/-- The parameters in the URL. -/
def urlParams (url : String) : List (String × String) :=
  (((urlQuery url).splitOnP (· == '&')).filter (· ≠ [])).map (fun x =>
    (String.ofList (x.takeWhile (· ≠ '=')), String.ofList ((x.dropWhile (· ≠ '=')).drop 1)))

/-- The values of a parameter.  Those in the body of a POST replace those of the URL. -/
def Request.values (r : Request) (n : String) : List String :=
  let q := ((urlParams r.url).filter (fun x => x.1 = n)).map (·.2)
  let f := (r.form.filter (fun x => x.1 = n)).map (·.2)
  if r.post then (if f = [] then q else f) else q ++ f

/-- The names of the parameters. -/
def Request.names (r : Request) : List String := (urlParams r.url).map (·.1) ++ r.form.map (·.1)

/-- The handlers; the argument of the path is the id of the cluster. -/
inductive Route where
  | index | details | search | exportClusters | recreateModel | refineModel
  | clusters | delete | create | merge | refine | pin
  | cluster (c : String) | clusterSearch (c : String)
  | features | removeFeatures | pinFeatures
  deriving DecidableEq

/-- The handlers below an index (server.py:309-543); the argument of `cluster` is taken if the part is no attribute
(server.py:187). -/
def routeIn : List String → Option Route
  | [] => some .index
  | ["details"] => some .details
  | ["search"] => some .search
  | ["export_clusters"] => some .exportClusters
  | ["recreate_model"] => some .recreateModel
  | ["refine_model"] => some .refineModel
  | ["cluster"] => some .clusters
  | ["cluster", "delete"] => some .delete
  | ["cluster", "create"] => some .create
  | ["cluster", "merge"] => some .merge
  | ["cluster", "refine"] => some .refine
  | ["cluster", "pin"] => some .pin
  | ["cluster", c] => some (.cluster c)
  | ["cluster", c, "search"] => some (.clusterSearch c)
  | ["feature"] => some .features
  | ["feature", "remove_from_model"] => some .removeFeatures
  | ["feature", "pin"] => some .pinFeatures
  | _ => none

/-- The attributes of the index object (server.py:309-543). -/
def indexAttributes : List String :=
  ["index", "details", "search", "export_clusters", "recreate_model", "refine_model", "cluster", "feature"]

/-- Below the mount point: the id of the index and the handler.  Both classes have `popargs("index_id")` (server.py:309, 546):
a second part that is no attribute replaces the first one. -/
def route : List String → Option (String × Route)
  | [] => none
  | [i] => some (i, .index)
  | i :: j :: rest =>
    if j ∈ indexAttributes then (routeIn (j :: rest)).map (fun t => (i, t))
    else
      match rest with
      | [] => some (j, .index)
      | k :: _ => if k ∈ indexAttributes then (routeIn rest).map (fun t => (j, t)) else none

/-- `@cherrypy.tools.allow(methods=["POST"])` (server.py:194, 206, 215, 224, 254, 280, 290, 490, 521). -/
def Route.needsPost : Route → Bool
  | .recreateModel | .refineModel | .delete | .create | .merge | .refine | .pin | .removeFeatures | .pinFeatures => true
  | _ => false

/-- Is the handler an `index` method (server.py:54, 190, 275, 318)? -/
def Route.isIndex : Route → Bool
  | .index | .clusters | .cluster _ | .features => true
  | _ => false

/-- The parameters of the handler besides those of the path; `none` for any (`**params`, server.py:196, 208, 217). -/
def Route.accepts : Route → Option (List String)
  | .index => some ["feature_id", "cluster_id", "exemplar_docs", "top_k_features", "scoring", "result_type"]
  | .details => some []
  | .search => some ["field", "value", "cluster_id"]
  | .exportClusters => some []
  | .recreateModel => some ["include_fields", "min_docs", "clusters", "iterations", "minimum_cluster_features"]
  | .refineModel => some ["iterations", "target_clusters", "minimum_cluster_features"]
  | .clusters => some ["cluster_id", "feature_id"]
  | .delete => none
  | .create => none
  | .merge => none
  | .refine => some ["cluster_id", "target_clusters", "iterations", "return_to", "minimum_cluster_features"]
  | .pin => some ["cluster_id", "pinned", "return_to"]
  | .cluster _ => some ["feature_id", "filter_cluster_id", "exemplar_docs", "scoring", "result_type"]
  | .clusterSearch _ => some ["field", "value"]
  | .features => some ["feature_id"]
  | .removeFeatures => some ["feature_id", "cluster_id"]
  | .pinFeatures => some ["feature_id", "cluster_id", "pinned"]

/-- The answer to a request. -/
inductive Answer (σ : Type) where
  | listing
  | blank
  | cluster (p : ClusterPage σ)
  | index (p : IndexPage σ)
  | details (summary : List FieldRow) (clusters : Nat)
  | file (content : List Char)
  | redirect (url : String)
  | failed (e : Err)

section
variable (int : String → Option Int)

/-- `int(text)`: a `ValueError` if it is no number. -/
def toInt (s : String) : Except Err Int :=
  match int s with
  | some n => .ok n
  | none => .error .valueError

/-- `int(text)` where the model has natural numbers. -/
def toNat (s : String) : Except Err Nat := do
  let n ← toInt int s
  if n < 0 then .error .valueError else .ok n.toNat

/-- A parameter that is given at most once. -/
def Request.arg (r : Request) (n : String) : Except Err (Option String) :=
  match r.values n with
  | [] => .ok none
  | [v] => .ok (some v)
  | _ => .error .typeError

/-- The same, converted. -/
def Request.argWith {α : Type} (conv : String → Except Err α) (r : Request) (n : String) : Except Err (Option α) := do
  match ← r.arg n with
  | none => return none
  | some v =>
    let x ← conv v
    return some x

/-- `if target_clusters: int(target_clusters) else: None` (server.py:235-238, 532-535). -/
def Request.target (r : Request) : Except Err (Option Int) := do
  match ← r.arg "target_clusters" with
  | none => return none
  | some v =>
    if v = "" then return none
    let x ← toInt int v
    return some x

variable {σ : Type} [LinearOrder σ]

/-- A query parameter that selects a scoring: only one is known (index.py:1187-1204). -/
def Request.scoring (r : Request) : Except Err Unit := do
  match ← r.arg "scoring" with
  | none => return ()
  | some s => if s = "jaccard" then return () else .error .valueError

/-- The handlers that only read (server.py:53-184, 189-191, 274-276, 316-487), for the index with the id `i`. -/
def Route.show (w : Web σ) (i : String) (r : Request) : Route → Except Err (Answer σ)
  -- server.py:316-424
  | .index => do
    let f ← r.argWith (toNat int) "feature_id"
    let c ← r.argWith (toInt int) "cluster_id"
    let n ← r.argWith (toNat int) "exemplar_docs"
    let k ← r.argWith (toNat int) "top_k_features"
    r.scoring
    let t ← r.arg "result_type"
    match ← indexPage w f c (n.getD 5) (k.getD 40) t with
    | none => return .redirect ("/index/" ++ i ++ "/details")
    | some p => return .index p
  -- server.py:53-169
  | .cluster c => do
    let c ← toInt int c
    let f ← r.argWith (toNat int) "feature_id"
    let g ← r.argWith (toInt int) "filter_cluster_id"
    let n ← r.argWith (toNat int) "exemplar_docs"
    r.scoring
    let t ← r.arg "result_type"
    let p ← clusterPage w c f g (n.getD 30) t
    return .cluster p
  -- server.py:447-463, index.py:913-918
  | .details => return .details w.db.fieldSummary (clusterIds w.db).length
  -- server.py:465-487
  | .exportClusters => return .file (Csv.clustersFile w.visitC w.visitT w.db 0)
  -- server.py:426-445
  | .search => do
    match ← r.arg "field", ← r.arg "value" with
    | some field, some value =>
      let f ← Web.search w.db field value
      match ← r.arg "cluster_id" with
      | some c => return .redirect ("/index/" ++ i ++ "/cluster/" ++ c ++ "?feature_id=" ++ toString f)
      | none => return .redirect ("/index/" ++ i ++ "/?feature_id=" ++ toString f)
    | _, _ => .error (.http 404)
  -- server.py:171-184
  | .clusterSearch c => do
    match ← r.arg "field", ← r.arg "value" with
    | some field, some value =>
      let f ← Web.search w.db field value
      return .redirect ("/index/" ++ i ++ "/cluster/" ++ c ++ "/?feature_id=" ++ toString f)
    | _, _ => .error (.http 404)
  -- server.py:189-191, 274-276
  | _ => return .blank

/-- The redirect of an action whose response names the page (server.py:209-212, 218-221, 245-251, 265-271, 517-518, 543). -/
def location (i : String) : Response → Answer σ
  | .cluster c => .redirect ("/index/" ++ i ++ "/cluster/" ++ toString c)
  | .index none => .redirect ("/index/" ++ i)
  | .index (some c) => .redirect ("/index/" ++ i ++ "/?cluster_id=" ++ toString c)
  | .failed e => .failed e

/-- The redirect of an action that leads to the cluster given as it was sent, or to the index (server.py:199-203, 284-287,
303-306). -/
def locationRaw (i : String) (c : Option String) (slash : String) : Response → Answer σ
  | .failed e => .failed e
  | _ =>
    match c with
    | some c => .redirect ("/index/" ++ i ++ "/cluster/" ++ c)
    | none => .redirect ("/index/" ++ i ++ slash)

/-- `if return_cluster_id:` (server.py:199): an empty text is like none. -/
def given : Option String → Option String
  | none => none
  | some s => if s = "" then none else some s

/-- The handlers that edit: the action, and the redirect for its response (server.py:193-306, 489-543). -/
def Route.action (i : String) (r : Request) : Route → Except Err (Option (Action × (Response → Answer σ)))
  | .delete => do
    let cs ← (r.values "cluster_id").mapM (toInt int)
    let back ← r.arg "return_cluster_id"
    return some (.delete cs none, locationRaw i (given back) "")
  | .create => do
    let fs ← (r.values "feature_id").mapM (toNat int)
    return some (.create fs, location i)
  | .merge => do
    let cs ← (r.values "cluster_id").mapM (toInt int)
    return some (.merge cs, location i)
  | .refine => do
    let cs ← (r.values "cluster_id").mapM (toInt int)
    let target ← r.target int
    let m ← r.argWith (toNat int) "minimum_cluster_features"
    let n ← r.argWith (toInt int) "iterations"
    let back ← r.arg "return_to"
    return some (.refine cs target (n.getD 10) (m.getD 1) (back.getD "cluster" = "cluster"), location i)
  | .pin => do
    let cs ← (r.values "cluster_id").mapM (toInt int)
    let b ← r.argWith (toInt int) "pinned"
    let back ← r.arg "return_to"
    return some (.pin cs (b.getD 1 ≠ 0) (back.getD "cluster" = "cluster"), location i)
  | .removeFeatures => do
    let fs ← (r.values "feature_id").mapM (toNat int)
    let back ← r.arg "cluster_id"
    return some (.removeFeatures fs none, locationRaw i back "/")
  | .pinFeatures => do
    let fs ← (r.values "feature_id").mapM (toNat int)
    let b ← r.argWith (toInt int) "pinned"
    let back ← r.arg "cluster_id"
    return some (.pinFeatures fs (b.getD 1 ≠ 0) none, locationRaw i back "/")
  | .recreateModel => do
    let clusters ← r.argWith (toInt int) "clusters"
    let minDocs ← r.argWith (toNat int) "min_docs"
    let n ← r.argWith (toInt int) "iterations"
    let m ← r.argWith (toNat int) "minimum_cluster_features"
    return some (.recreateModel (r.values "include_fields") (minDocs.getD 10) (clusters.getD 64) (n.getD 10) (m.getD 1), location i)
  | .refineModel => do
    let n ← r.argWith (toInt int) "iterations"
    let target ← match r.values "target_clusters" with
      | [] => toInt int "0" >>= fun x => pure (some x)
      | _ => r.target int
    let m ← r.argWith (toNat int) "minimum_cluster_features"
    return some (.refineModel target (n.getD 10) (m.getD 1), location i)
  | _ => return none

/-- An argument of the path: a parameter of the same name in the body of a POST replaces it. -/
def Request.pathArg (r : Request) (n path : String) : Except Err String :=
  match if r.post then (r.form.filter (fun x => x.1 = n)).map (·.2) else [] with
  | [] => .ok path
  | [v] => .ok v
  | _ => .error .typeError

/-- The handler with the argument of the path as `pathArg` has it. -/
def Route.withArg (r : Request) : Route → Except Err Route
  | .cluster c => do
    let c ← r.pathArg "cluster_id" c
    return .cluster c
  | .clusterSearch c => do
    let c ← r.pathArg "cluster_id" c
    return .clusterSearch c
  | t => return t

/-- Does the handler take these parameters?  If not, the answer is 404. -/
def Route.takes (t : Route) (r : Request) : Bool :=
  match t.accepts with
  | none => true
  | some ns => r.names.all (fun n => n ∈ ns || n = "index_id" ||
      match t with
      | .cluster _ | .clusterSearch _ => n = "cluster_id"
      | _ => false)

/-- `lookup_index` (server.py:22-26) with `SingleIndexServer.index` (server.py:593-604): there is only the index 0. -/
def lookupIndex (i : String) : Except Err Unit := do
  let n ← toInt int i
  if n ≠ 0 then .error (.http 404) else .ok ()

/-- What comes before the handler: the arguments of the path, and the index (server.py:22-26). -/
def prepare (r : Request) (i : String) (t : Route) : Except Err (String × Route) := do
  let i ← r.pathArg "index_id" i
  lookupIndex int i
  let t ← t.withArg r
  return (i, t)

/-- A request that has a handler: `luck` and `fault` are the draws and failures of an action. -/
def handle (luck : Luck σ) (fault : Nat → Option Err) (w : Web σ) (r : Request) (i : String) (t : Route) : DB × Answer σ :=
  if t.needsPost && !r.post then (w.db, .failed (.http 405)) else
  match prepare int r i t with
  | .error e => (w.db, .failed e)
  | .ok (i, t) =>
    if t.isIndex && !urlSlash r.url then
      -- the redirect keeps the query
      (w.db, .redirect (String.ofList (urlPath r.url ++ ['/'] ++ r.url.toList.dropWhile (· ≠ '?'))))
    else if !t.takes r then (w.db, .failed (.http 404))
    else
      match t.action (σ := σ) int i r with
      | .error e => (w.db, .failed e)
      | .ok (some (a, respond)) => ((a.perform luck fault w.db).1, respond (a.perform luck fault w.db).2)
      | .ok none =>
        match t.show int w i r with
        | .error e => (w.db, .failed e)
        | .ok a => (w.db, a)

/-- The answer to a request (server.py:623-659: what is mounted where; 546-566: the list of indexes and the root). -/
def respond (luck : Luck σ) (fault : Nat → Option Err) (w : Web σ) (r : Request) : DB × Answer σ :=
  match urlParts r.url with
  | [] => (w.db, .redirect "/index/")
  | "index" :: parts =>
    match parts with
    | [] => (w.db, if urlSlash r.url then .listing else .redirect "/index/")
    | _ =>
      match route parts with
      | none => (w.db, .failed (.http 404))
      | some (i, t) => handle int luck fault w r i t
  | _ => (w.db, .failed (.http 404))

/-- A browser that follows redirects, which are all answered to a GET request; at most `n` of them.  The redirects of pages
change nothing, so that the content is the one the request left. -/
def browse (luck : Luck σ) (fault : Nat → Option Err) (w : Web σ) : Nat → Request → Answer σ
  | 0, r => (respond int luck fault w r).2
  | n + 1, r =>
    match (respond int luck fault w r).2 with
    | .redirect url => browse luck fault { w with db := (respond int luck fault w r).1 } n (.get url)
    | a => a

end

end Hyperreal.Web
