import Verif.Model.Db
import Verif.Model.Atomic

/-!
# The clustering model: statements, triggers, housekeeping and the public methods that edit it

Statements are written with the triggers of _index_schema.py:135-164 spelled out.  Foreign keys are on
(index.py:163) for everything in this file.
-/

namespace Hyperreal
namespace DB

/-- `insert or ignore into cluster(cluster_id) values (?)` (triggers, _index_schema.py:138, 149). -/
def ensureCluster (c : Int) (db : DB) : DB :=
  if db.clusters.any (fun r => r.cid = c) then db
  else { db with clusters := db.clusters ++ [{ cid := c }] }

/-- `insert or ignore into changed_cluster(cluster_id) values (?)` (triggers, _index_schema.py:140, 153-154, 162-163). -/
def markChanged (c : Int) (db : DB) : DB :=
  if c ∈ db.changed then db else { db with changed := db.changed ++ [c] }

/-- The trigger `insert_feature_checks` (_index_schema.py:135-141). -/
def onInsertFC (c : Int) (db : DB) : DB := (db.ensureCluster c).markChanged c

/-- The trigger `update_feature_checks` (_index_schema.py:144-155). -/
def onUpdateFC (old new : Int) (db : DB) : DB :=
  if old ≠ new then ((db.ensureCluster new).markChanged new).markChanged old else db

/-- The trigger `delete_feature_checks` (_index_schema.py:158-164). -/
def onDeleteFC (old : Int) (db : DB) : DB := db.markChanged old

/-- Foreign keys of `feature_cluster` and `changed_cluster` (_index_schema.py:99-100, 118). -/
def fkOk (db : DB) : Bool :=
  db.fc.all (fun r => db.features.any (fun f => f.fid = r.fid) && db.clusters.any (fun k => k.cid = r.cid)) &&
  db.changed.all (fun c => db.clusters.any (fun k => k.cid = c))

/-- A statement takes effect only if the foreign keys hold at its end (immediate constraints), otherwise
`IntegrityError`. -/
def checked (db : DB) : Except Err DB := if db.fkOk then .ok db else .error .integrity

/-- `insert into feature_cluster(cluster_id, feature_id, docs_count) values (?, ?, ?)` (index.py:969-975). -/
def insertFC (f : Nat) (c : Int) (n : Nat) (db : DB) : Except Err DB :=
  let db' := db.onInsertFC c
  if db'.fc.any (fun r => r.fid = f) then .error .integrity
  else checked { db' with fc := db'.fc ++ [{ fid := f, cid := c, docsCount := n, pinned := false }] }

/-- `insert or ignore into feature_cluster(feature_id, cluster_id, docs_count) values (?1, ?2, (select docs_count from
inverted_index where feature_id = ?1))` (index.py:1047-1059).  The `before insert` trigger runs even when the row is
then ignored.  For an unknown feature the count is NULL; the row then violates the foreign key, which `or ignore`
does not suppress. -/
def insertOrIgnoreFC (f : Nat) (c : Int) (db : DB) : Except Err DB :=
  let n := match db.feature? f with
    | some r => r.docsCount
    | none => 0
  let db' := db.onInsertFC c
  if db'.fc.any (fun r => r.fid = f) then checked db'
  else checked { db' with fc := db'.fc ++ [{ fid := f, cid := c, docsCount := n, pinned := false }] }

/-- `update feature_cluster set cluster_id = c where <p>` (index.py:1004, 1062, 1761): the trigger runs for each matching
row. -/
def updateFC (p : FCRow → Bool) (c : Int) (db : DB) : Except Err DB :=
  let db' := (db.fc.filter p).foldl (fun d r => d.onUpdateFC r.cid c) db
  checked { db' with fc := db'.fc.map (fun r => if p r then { r with cid := c } else r) }

/-- `delete from feature_cluster where <p>` (index.py:935, 990, 1016): the trigger runs for each matching row. -/
def deleteFC (p : FCRow → Bool) (db : DB) : Except Err DB :=
  let db' := (db.fc.filter p).foldl (fun d r => d.onDeleteFC r.cid) db
  checked { db' with fc := db'.fc.filter (fun r => !p r) }

/-- `delete from cluster where <p>` (index.py:936, 1825) with `on delete cascade` on `changed_cluster`.  Simplification:
the cascade to `feature_cluster` is not modelled; instead the statement fails if a deleted cluster still has
features.  In the reachable states the statements are used in, it never has. -/
def deleteClusterRows (p : ClusterRow → Bool) (db : DB) : Except Err DB :=
  let gone := db.clusters.filter p
  checked { db with
    clusters := db.clusters.filter (fun r => !p r)
    changed := db.changed.filter (fun c => !gone.any (fun r => r.cid = c)) }

/-- `update feature_cluster set pinned = ? where feature_id = ?` (index.py:1082); the update trigger's condition is
false. -/
def pinFC (f : Nat) (b : Bool) (db : DB) : Except Err DB :=
  checked { db with fc := db.fc.map (fun r => if r.fid = f then { r with pinned := b } else r) }

/-- `update cluster set pinned = ? where cluster_id = ?` (index.py:1096). -/
def pinCluster (c : Int) (b : Bool) (db : DB) : Except Err DB :=
  checked { db with clusters := db.clusters.map (fun r => if r.cid = c then { r with pinned := b } else r) }

/-! ## Housekeeping -/

/-- `_union_query` (index.py:2388-2400), run in a pool worker on its own connection: reads the committed inverted
index.  Returns the union of the features' documents and the sum of their sizes. -/
def unionQuery (committed : DB) (fids : List Nat) : Bitmap × Nat :=
  fids.foldl (fun acc f => (acc.1 ∪ committed.docsOf f, acc.2 + (committed.docsOf f).card)) (∅, 0)

/-- index.py:1781-1790: refresh `feature_count` of the changed clusters. -/
def refreshCounts (db : DB) : DB :=
  { db with clusters := db.clusters.map (fun r =>
      if r.cid ∈ db.changed then { r with featureCount := (db.members r.cid).length } else r) }

/-- index.py:1795-1823: refresh the union statistics of one cluster. -/
def refreshUnion (committed : DB) (c : Int) (db : DB) : DB :=
  let q := unionQuery committed ((db.members c).map (·.fid))
  { db with clusters := db.clusters.map (fun r =>
      if r.cid = c then { r with docsCount := q.1.card, weight := q.2, docs := some q.1 } else r) }

/-- `Index._update_changed_clusters` (index.py:1770-1826).  `fault` is an exception from the worker pool (for instance a
broken process pool), raised before any union is written. -/
def updateChanged (fault : Option Err) (committed db : DB) : DB × Option Err :=
  let db := db.refreshCounts
  match fault with
  | some e => (db, some e)
  | none =>
    let db := db.changed.foldl (fun d c => DB.refreshUnion committed c d) db
    match db.deleteClusterRows (fun r => r.featureCount = 0) with
    | .error e => (db, some e)
    | .ok db => ({ db with changed := [] }, none)

end DB

/-! ## The public methods that edit the model -/

/-- What methods and statements return. -/
inductive Ret where
  | none
  | id (c : Int)
  | db (d : DB)

abbrev Method := Atomic.Prog DB Ret

/-- Run the statements one after the other; the first failing one raises. -/
def stmts : List (DB → Except Err DB) → Method → Method
  | [], k => k
  | f :: fs, k => .stmt (fun db => (f db).map (fun d => (d, Ret.none))) (fun r =>
      match r with
      | .ok _ => stmts fs k
      | .error e => .ret (.error e))

/-- Read the database and go on. -/
def reading (k : DB → Method) : Method :=
  .stmt (fun db => .ok (db, Ret.db db)) (fun r =>
    match r with
    | .ok (.db d) => k d
    | .ok _ => .ret (.error .typeError)
    | .error e => .ret (.error e))

/-- `l[i::n]` for `n > 0` and a list: the elements at positions `i, i+n, i+2n, ...`. -/
def everyNth {α : Type} (l : List α) (i n : Nat) : List α :=
  (l.zipIdx.filter (fun x => x.2 % n = i % n ∧ i ≤ x.2)).map (·.1)

/-- index.py:948-961: the features to deal out, `(feature_id, docs_count)`, ordered by feature id.  The inner join
repeats a feature for every occurrence of its field in the list of included fields. -/
def selectFeatures (db : DB) (minDocs : Nat) (fields : List String) : List (Nat × Nat) :=
  ((db.features.flatMap (fun r =>
      if minDocs ≤ r.docsCount then (fields.filter (fun f => f = r.field)).map (fun _ => (r.fid, r.docsCount)) else []))
    ).insertionSort (fun a b => a.1 ≤ b.1)

/-- `Index.initialise_clusters` (index.py:920-983).  `shuffle` is the outcome of `self.random.shuffle`;
`includeFields = []` stands for `None` as well (both are falsy). -/
def initialiseClusters (n : Nat) (minDocs : Nat) (includeFields : List String)
    (shuffle : List (Nat × Nat) → List (Nat × Nat)) : Method :=
  stmts [DB.deleteFC (fun _ => true), DB.deleteClusterRows (fun _ => true)] <|
  reading fun db =>
    let fields := if includeFields.isEmpty then db.fieldSummary.map (·.field) else includeFields
    let featureIds := shuffle (selectFeatures db minDocs fields)
    let rows := (List.range n).flatMap (fun i => (everyNth featureIds i n).map (fun f => (i, f)))
    stmts (rows.map (fun r => DB.insertFC r.2.1 (r.1 : Int) r.2.2)) (.ret (.ok .none))

/-- `Index.delete_clusters` (index.py:985-994). -/
def deleteClusters (cids : List Int) : Method :=
  stmts (cids.map (fun c => DB.deleteFC (fun r => r.cid = c))) (.ret (.ok .none))

/-- `Index.merge_clusters` (index.py:996-1010); an empty list raises `IndexError`. -/
def mergeClusters (cids : List Int) : Method :=
  match cids with
  | [] => .ret (.error .indexError)
  | c :: rest => stmts (rest.map (fun d => DB.updateFC (fun r => r.cid = d) c)) (.ret (.ok (.id c)))

/-- `Index.delete_features` (index.py:1012-1020). -/
def deleteFeatures (fids : List Nat) : Method :=
  stmts (fids.map (fun f => DB.deleteFC (fun r => r.fid = f))) (.ret (.ok .none))

/-- `Index.next_cluster_id` (index.py:1022-1034): `coalesce(max(cluster_id), 0) + 1`. -/
def nextClusterId (db : DB) : Int :=
  match db.clusters.map (·.cid) with
  | [] => 1
  | c :: cs => cs.foldl max c + 1

/-- `Index.create_cluster_from_features` (index.py:1036-1068). -/
def createCluster (fids : List Nat) : Method :=
  reading fun db =>
    let c := nextClusterId db
    stmts (fids.map (fun f => DB.insertOrIgnoreFC f c)) <|
    stmts (fids.map (fun f => DB.updateFC (fun r => r.fid = f) c)) (.ret (.ok (.id c)))

/-- `Index.pin_features` (index.py:1070-1084). -/
def pinFeatures (fids : List Nat) (b : Bool) : Method :=
  stmts (fids.map (fun f => DB.pinFC f b)) (.ret (.ok .none))

/-- `Index.pin_clusters` (index.py:1086-1098). -/
def pinClusters (cids : List Int) (b : Bool) : Method :=
  stmts (cids.map (fun c => DB.pinCluster c b)) (.ret (.ok .none))

/-- `Index._update_cluster_feature` (index.py:1749-1768). -/
def updateClusterFeature (clusterFeature : List (Int × List Nat)) : Method :=
  stmts ((clusterFeature.flatMap (fun cf => cf.2.map (fun f => (cf.1, f)))).map
    (fun x => DB.updateFC (fun r => r.fid = x.2) x.1)) (.ret (.ok .none))

/-- `Index.refine_clusters` (index.py:1651-1747) as seen by the database: it reads, computes, and hands a mapping to the
decorated `_update_cluster_feature`.  The computation `plan` is modelled in `Verif.Model.Refine`; here it is any
function of what was read, which may also raise. -/
def refineWith (plan : DB → Except Err (List (Int × List Nat))) : Method :=
  reading fun db =>
    match plan db with
    | .error e => .ret (.error e)
    | .ok m => .call "_update_cluster_feature" true (updateClusterFeature m) .ret

/-- A public call that edits the model. -/
inductive ModelOp where
  | initialise (n minDocs : Nat) (fields : List String) (shuffle : List (Nat × Nat) → List (Nat × Nat))
  | deleteClusters (cids : List Int)
  | merge (cids : List Int)
  | deleteFeatures (fids : List Nat)
  | create (fids : List Nat)
  | pinFeatures (fids : List Nat) (b : Bool)
  | pinClusters (cids : List Int) (b : Bool)
  | refine (plan : DB → Except Err (List (Int × List Nat)))

/-- The decorated method for each public call: name, `writes` flag and body.  `refine_clusters` itself is decorated with
`atomic()` without `writes` (index.py:1651). -/
def ModelOp.method : ModelOp → String × Bool × Method
  | .initialise n m fs sh => ("initialise_clusters", true, Hyperreal.initialiseClusters n m fs sh)
  | .deleteClusters cs => ("delete_clusters", true, Hyperreal.deleteClusters cs)
  | .merge cs => ("merge_clusters", true, mergeClusters cs)
  | .deleteFeatures fs => ("delete_features", true, Hyperreal.deleteFeatures fs)
  | .create fs => ("create_cluster_from_features", true, createCluster fs)
  | .pinFeatures fs b => ("pin_features", true, Hyperreal.pinFeatures fs b)
  | .pinClusters cs b => ("pin_clusters", true, Hyperreal.pinClusters cs b)
  | .refine plan => ("refine_clusters", false, refineWith plan)

/-- Execute a public call on a connection; `fault` is a failure of the worker pool during housekeeping. -/
def ModelOp.exec (fault : Option Err) (op : ModelOp) (c : Atomic.Conn DB) : Atomic.Conn DB × Except Err Ret :=
  Atomic.callMethod (DB.updateChanged fault) op.method.1 op.method.2.1 op.method.2.2 c

end Hyperreal
