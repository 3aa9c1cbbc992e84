import Verif.Model.Store

/-!
# `Index.index`: dispatching batches, the worker `_index_docs`, merging, commit points

What is not modelled: the multiprocessing manager, temporary files and their clean-up, `attach`/`detach`, logging, and
that `foreign_keys` is off during the call (so that `replace` does not cascade; the statements below are
written accordingly).
-/

namespace Hyperreal

/-! ## Corpora -/

/-- What `corpus.index(doc)` gives for one field: a `Sequence` (position matters) or another iterable; items may be
`None`. -/
inductive Values where
  | seq (vs : List (Option Val))
  | bag (vs : List (Option Val))
  deriving DecidableEq

/-- The items of a field, `set(values)` (index.py:2110). -/
def Values.items : Values → List (Option Val)
  | .seq vs => vs
  | .bag vs => vs

/-- The mapping returned by `corpus.index(doc)`: a Python `dict`, as an association list. -/
abbrev Features := List (String × Values)

/-- A corpus as `Index.index` uses it (corpus.py:33-86): `keys()`, and `docs(doc_keys=ks)` composed with `index`. -/
structure Corpus where
  keys : List Val
  docs : List Val → Except Err (List Features)

/-! ## `collections.defaultdict` -/

namespace Assoc
variable {K E : Type} [DecidableEq K]

/-- `d[k]` on a `defaultdict` (without the insertion of the default). -/
def get (dflt : E) : List (K × E) → K → E
  | [], _ => dflt
  | (k', e) :: l, k => if k' = k then e else get dflt l k

/-- `d[k] = f(d[k])` on a `defaultdict`: inserts the default first when the key is absent. -/
def upsert (dflt : E) (k : K) (f : E → E) : List (K × E) → List (K × E)
  | [] => [(k, f dflt)]
  | (k', e) :: l => if k' = k then (k', f e) :: l else (k', e) :: upsert dflt k f l

end Assoc

/-! ## `_index_docs` -/

/-- `bitmap[-1]` for a non-empty bitmap (index.py:2093): the greatest member. -/
def Bitmap.last (s : Bitmap) : Nat := s.sup id

/-- The dictionaries built by `_index_docs` (index.py:2071-2080).  `entries` maps (field, value) to (documents,
positions); `starts` maps a field to (documents, position starts). -/
structure BatchState where
  entries : List ((String × Val) × (Bitmap × Bitmap)) := []
  starts : List (String × (Bitmap × Bitmap)) := []

/-- A row of the temporary table `inverted_index_segment` (index.py:2121-2129). -/
structure SegRow where
  field : String
  value : Val
  docsCount : Nat
  docs : Bitmap
  posCount : Nat
  positions : Bitmap
  firstDoc : Nat
  deriving DecidableEq

/-- index.py:2095-2098: record the positions of one sequence, starting at `p`; a `None` raises `ValueError`. -/
def addPositions (field : String) : Nat → List (Option Val) → BatchState → Except Err BatchState
  | _, [], st => .ok st
  | _, none :: _, _ => .error .valueError
  | p, some v :: vs, st =>
    addPositions field (p + 1) vs
      { st with entries := Assoc.upsert (∅, ∅) (field, v) (fun e => (e.1, insert p e.2)) st.entries }

/-- index.py:2110-2114: record the document under each distinct value that is not `None`.  The order in which Python
iterates over the set only affects the order of rows in a temporary table. -/
def addDocs (field : String) (docId : Nat) (vs : List (Option Val)) (st : BatchState) : BatchState :=
  (vs.filterMap id).dedup.foldl (fun st v =>
    { st with entries := Assoc.upsert (∅, ∅) (field, v) (fun e => (insert docId e.1, e.2)) st.entries }) st

/-- index.py:2090-2114: one field of one document. -/
def indexField (positions : Bool) (docId : Nat) (field : String) (values : Values) (st : BatchState) :
    Except Err BatchState :=
  match positions, values with
  | true, .seq vs =>
    let base := Bitmap.last (Assoc.get (∅, {0}) st.starts field).2
    let st := { st with starts := Assoc.upsert (∅, {0}) field id st.starts }
    match addPositions field base vs st with
    | .error e => .error e
    | .ok st =>
      if vs = [] then .ok st
      else
        let add := fun e : Bitmap × Bitmap => (insert docId e.1, insert (base + vs.length) e.2)
        let st := { st with starts := Assoc.upsert (∅, {0}) field add st.starts }
        .ok (addDocs field docId vs st)
  | _, values => .ok (addDocs field docId values.items st)

/-- index.py:2087-2114: the (document id, field, values) triples of the batch, one after another. -/
def indexFields (positions : Bool) : List (Nat × String × Values) → BatchState → Except Err BatchState
  | [], st => .ok st
  | x :: xs, st =>
    match indexField positions x.1 x.2.1 x.2.2 st with
    | .error e => .error e
    | .ok st => indexFields positions xs st

/-- What a worker writes to the temporary database (index.py:2116-2184). -/
structure BatchOut where
  segs : List SegRow
  pos : List PosDocRow

/-- The triples of a batch: `zip(doc_ids, docs)`, each document's fields in order (index.py:2087-2090). -/
def batchTriples (ids : List Nat) (docs : List Features) : List (Nat × String × Values) :=
  (ids.zip docs).flatMap (fun x => x.2.map (fun fv => (x.1, fv.1, fv.2)))

/-- `_index_docs` (index.py:2056-2189). -/
def indexDocs (corpus : Corpus) (positions : Bool) (batch : List (Nat × Val)) : Except Err BatchOut :=
  match batch.map (·.1) with
  | [] => .error .indexError
  | first :: rest =>
    match corpus.docs (batch.map (·.2)) with
    | .error e => .error e
    | .ok docs =>
      match indexFields positions (batchTriples (first :: rest) docs) {} with
      | .error e => .error e
      | .ok st => .ok {
          segs := st.entries.map (fun e => ⟨e.1.1, e.1.2, e.2.1.card, e.2.1, e.2.2.card, e.2.2, first⟩)
          pos := st.starts.map (fun e => ⟨e.1, first, (first :: rest).getLast (by simp), e.2.1.card, e.2.1, e.2.2⟩) }

/-! ## Dispatching -/

/-- What the dispatch loop does, in order. -/
inductive Event where
  | insert (k : Nat × Val)           -- insert into doc_key
  | submit (b : List (Nat × Val))    -- pool.submit(_index_docs, ...)
  | await (bs : List (List (Nat × Val)))  -- f.result() for the futures in bs

/-- index.py:360-413: the loop over the document keys and the final batch.  `batch` are the documents collected so far
(`batch_doc_ids`, `batch_doc_keys`; `batch_size` is always their number), `futures` the futures in flight; `pick` is
the answer of `cf.wait(futures, return_when="FIRST_COMPLETED")`.  Returns the events and the futures left. -/
def dispatch (size : Int) (workers : Nat)
    (pick : List (List (Nat × Val)) → List (List (Nat × Val)) × List (List (Nat × Val))) :
    List (Nat × Val) → List (Nat × Val) → List (List (Nat × Val)) → List Event × List (List (Nat × Val))
  | [], batch, futures =>
    if batch = [] then ([], futures) else ([.submit batch], batch :: futures)
  | k :: ks, batch, futures =>
    let batch := batch ++ [k]
    if (batch.length : Int) ≥ size then
      let futures := batch :: futures
      if futures.length ≥ workers + 1 then
        let (done, futures) := pick futures
        let (es, fs) := dispatch size workers pick ks [] futures
        (.insert k :: .submit batch :: .await done :: es, fs)
      else
        let (es, fs) := dispatch size workers pick ks [] futures
        (.insert k :: .submit batch :: es, fs)
    else
      let (es, fs) := dispatch size workers pick ks batch futures
      (.insert k :: es, fs)

/-- The batches submitted. -/
def submitted : List Event → List (List (Nat × Val))
  | [] => []
  | .submit b :: es => b :: submitted es
  | _ :: es => submitted es

/-- The batches whose result was awaited. -/
def awaited : List Event → List (List (Nat × Val))
  | [] => []
  | .await bs :: es => bs ++ awaited es
  | _ :: es => awaited es

/-- `enumerate(corpus.keys())` (index.py:358). -/
def enumKeys (keys : List Val) : List (Nat × Val) := keys.zipIdx.map (fun x => (x.2, x.1))

/-! ## The statements of `index` -/

namespace DB

/-- `insert into doc_key values(?, ?)` (index.py:369); both columns are unique. -/
def insertDocKey (k : Nat × Val) (db : DB) : Except Err DB :=
  if db.docKeys.any (fun x => x.1 = k.1 || x.2 = k.2) then .error .integrity
  else .ok { db with docKeys := db.docKeys ++ [k] }

/-- index.py:418-425: zero out the features. -/
def zeroFeatures (db : DB) : DB :=
  { db with features := db.features.map (fun r => { r with docsCount := 0, docs := ∅ }) }

/-- The id SQLite gives to a new row: one more than the greatest. -/
def nextFid (db : DB) : Nat := (db.features.map (·.fid)).foldl max 0 + 1

/-- index.py:451-467, one group (its documents united by the aggregate of db_utilities.py:53-61): `replace into inverted_index` with the old id of the (field, value) if there is one. -/
def replaceFeature (segs : List SegRow) (k : String × Val) (db : DB) : DB :=
  let rows := segs.filter (fun s => s.field = k.1 ∧ s.value = k.2)
  let fid := match db.features.find? (fun r => r.field = k.1 ∧ r.value = k.2) with
    | some r => r.fid
    | none => db.nextFid
  { db with features :=
      db.features.filter (fun r => !(decide (r.fid = fid) || decide (r.field = k.1 ∧ r.value = k.2))) ++
      [⟨fid, k.1, k.2, (rows.map (·.docsCount)).sum, rows.foldl (fun acc s => acc ∪ s.docs) ∅⟩] }

/-- index.py:451-467; `keys` are the distinct (field, value) pairs of the segments, in the order of the groups.  (The
inner select sees the table before the statement; as the groups are distinct this makes no difference.) -/
def mergeSegments (segs : List SegRow) (keys : List (String × Val)) (db : DB) : DB :=
  keys.foldl (fun d k => d.replaceFeature segs k) db

/-- index.py:470-485, one row; the key (feature_id, first_doc_id) is unique.  A missing feature would give a NULL id; it
is modelled as an error (it cannot happen after the merge). -/
def insertPosition (s : SegRow) (db : DB) : Except Err DB :=
  match db.features.find? (fun r => r.field = s.field ∧ r.value = s.value) with
  | none => .error .integrity
  | some r =>
    if db.posIndex.any (fun p => p.fid = r.fid && p.firstDoc = s.firstDoc) then .error .integrity
    else .ok { db with posIndex := db.posIndex ++ [⟨r.fid, s.firstDoc, s.posCount, s.positions⟩] }

/-- Run row by row; the statement fails when a row fails. -/
def forRows {α : Type} (f : α → DB → Except Err DB) : List α → DB → Except Err DB
  | [], db => .ok db
  | x :: xs, db =>
    match f x db with
    | .error e => .error e
    | .ok db => forRows f xs db

/-- index.py:487-493, one row; the key (field, first_doc_id) is unique. -/
def insertPosDoc (r : PosDocRow) (db : DB) : Except Err DB :=
  if db.posDocMap.any (fun p => p.field = r.field && p.firstDoc = r.firstDoc) then .error .integrity
  else .ok { db with posDocMap := db.posDocMap ++ [r] }

/-- index.py:496-505: refresh the counts in the model (NULL, for a feature that does not exist, is modelled as 0). -/
def refreshFcCounts (db : DB) : DB :=
  { db with fc := db.fc.map (fun r => { r with docsCount := ((db.feature? r.fid).map (·.docsCount)).getD 0 }) }

/-- SQL `min`/`max` over a non-empty list of values. -/
def minVal (v : Val) (vs : List Val) : Val := vs.foldl (fun a b => if Val.le a b then a else b) v
/-- See `minVal`. -/
def maxVal (v : Val) (vs : List Val) : Val := vs.foldl (fun a b => if Val.le a b then b else a) v

/-- index.py:509-529: the field summary (rows in no particular order), for an empty table.  The position count sums
`position_index` over the features of the field. -/
def writeFieldSummary (db : DB) : DB :=
  { db with fieldSummary := (db.features.map (·.field)).dedup.filterMap (fun f =>
      match (db.features.filter (fun r => r.field = f)).map (·.value) with
      | [] => none
      | v :: vs => some ⟨f, (v :: vs).length, minVal v vs, maxVal v vs,
          ((db.posIndex.filter (fun p => (db.feature? p.fid).any (fun r => r.field = f))).map (·.count)).sum⟩) }

/-- index.py:509-529: the insert adds to the table, and the field is its primary key (_index_schema.py:67). -/
def insertFieldSummary (db : DB) : Except Err DB :=
  if db.writeFieldSummary.fieldSummary.any (fun r => r.field ∈ db.fieldSummary.map (·.field)) then .error .integrity
  else .ok { db with fieldSummary := db.fieldSummary ++ db.writeFieldSummary.fieldSummary }

/-- index.py:532-534: `insert into changed_cluster select cluster_id from cluster`; the key is unique. -/
def markAllChanged (db : DB) : Except Err DB :=
  if db.clusters.any (fun k => k.cid ∈ db.changed) then .error .integrity
  else .ok { db with changed := db.changed ++ db.clusters.map (·.cid) }

end DB

/-! ## `Index.index` -/

/-- Everything `index` does not control: which futures finish first, in which order the workers' rows end up in the
temporary database, in which order SQLite forms the groups, and where exceptions strike (`fault i`: an exception
raised instead of step `i`). -/
structure Schedule where
  pick : List (List (Nat × Val)) → List (List (Nat × Val)) × List (List (Nat × Val))
  segOrder : List SegRow → List SegRow
  posOrder : List PosDocRow → List PosDocRow
  groupOrder : List (String × Val) → List (String × Val)
  fault : Nat → Option Err := fun _ => none

/-- The parameters of `index` (index.py:301-307). -/
structure IndexCfg where
  size : Int := 1000
  workers : Nat
  positions : Bool

/-- One step of `index`. -/
inductive Step where
  | sql (f : DB → Except Err DB)
  | await (bs : List (List (Nat × Val)))
  | nop
  | begin
  | commit
  | housekeeping

/-- The steps of the dispatch loop. -/
def Event.step : Event → Step
  | .insert k => .sql (DB.insertDocKey k)
  | .submit _ => .nop
  | .await bs => .await bs

/-- The output of a worker that did not fail. -/
def workerOut (corpus : Corpus) (positions : Bool) (b : List (Nat × Val)) : BatchOut :=
  match indexDocs corpus positions b with
  | .ok o => o
  | .error _ => ⟨[], []⟩

/-- The first exception among the awaited results (`f.result()`, index.py:397-398, 432-433). -/
def awaitErr (corpus : Corpus) (positions : Bool) : List (List (Nat × Val)) → Option Err
  | [] => none
  | b :: bs =>
    match indexDocs corpus positions b with
    | .error e => some e
    | .ok _ => awaitErr corpus positions bs

/-- The dispatch loop of a call (index.py:358-413). -/
def indexEvents (corpus : Corpus) (cfg : IndexCfg) (s : Schedule) : List Event × List (List (Nat × Val)) :=
  dispatch cfg.size cfg.workers s.pick (enumKeys corpus.keys) [] []

/-- The rows of the temporary database once all batches have completed. -/
def tempSegs (corpus : Corpus) (cfg : IndexCfg) (s : Schedule) : List SegRow :=
  s.segOrder ((submitted (indexEvents corpus cfg s).1).flatMap (fun b => (workerOut corpus cfg.positions b).segs))

/-- See `tempSegs`. -/
def tempPos (corpus : Corpus) (cfg : IndexCfg) (s : Schedule) : List PosDocRow :=
  s.posOrder ((submitted (indexEvents corpus cfg s).1).flatMap (fun b => (workerOut corpus cfg.positions b).pos))

/-- The groups of `group by field, value`. -/
def tempKeys (corpus : Corpus) (cfg : IndexCfg) (s : Schedule) : List (String × Val) :=
  s.groupOrder (((tempSegs corpus cfg s).map (fun r => (r.field, r.value))).dedup)

/-- index.py:354-534, the first transaction after `begin`. -/
def indexPhase1 (corpus : Corpus) (cfg : IndexCfg) (s : Schedule) : List Step :=
  [.sql (fun db => .ok { db with docKeys := [] })] ++
  (indexEvents corpus cfg s).1.map Event.step ++
  [.sql (fun db => .ok db.zeroFeatures),
   .sql (fun db => .ok { db with posDocMap := [] }),
   .sql (fun db => .ok { db with posIndex := [] }),
   .await (indexEvents corpus cfg s).2,
   -- attach and create index: the segment table exists when some batch was written (index.py:439-448)
   .sql (fun db => if submitted (indexEvents corpus cfg s).1 = [] then .error .operational else .ok db),
   .sql (fun db => .ok (db.mergeSegments (tempSegs corpus cfg s) (tempKeys corpus cfg s))),
   .sql (DB.forRows DB.insertPosition ((tempSegs corpus cfg s).filter (fun r => 0 < r.posCount))),
   .sql (DB.forRows DB.insertPosDoc (tempPos corpus cfg s)),
   .sql (fun db => .ok db.refreshFcCounts),
   .sql (fun db => .ok { db with fieldSummary := [] }),
   .sql DB.insertFieldSummary,
   .sql DB.markAllChanged]

/-- index.py:536-540, the commit points and the second transaction. -/
def indexPhase2 : List Step := [.commit, .begin, .housekeeping, .commit]

/-- SQL `commit`. -/
def Atomic.Conn.commit {σ : Type} (c : Atomic.Conn σ) : Option (Atomic.Conn σ) :=
  if c.inTxn then some ({ c with committed := c.work, stack := [], begun := false } : Atomic.Conn σ).log else none

/-- SQL `rollback`. -/
def Atomic.Conn.rollback {σ : Type} (c : Atomic.Conn σ) : Option (Atomic.Conn σ) :=
  if c.inTxn then some ({ c with work := c.committed, stack := [], begun := false } : Atomic.Conn σ).log else none

/-- Execute one step: the connection afterwards, and the exception raised.  A fault strikes before the step has an
effect, except in the housekeeping, where it may leave a part done. -/
def Step.exec (corpus : Corpus) (positions : Bool) (fault : Option Err) (c : Atomic.Conn DB) :
    Step → Atomic.Conn DB × Option Err
  | .housekeeping =>
    match DB.updateChanged fault c.committed c.work with
    | (d, e) => (({ c with work := d } : Atomic.Conn DB).log, e)
  | st =>
    match fault with
    | some e => (c, some e)
    | none =>
      match st with
      | .sql f =>
        match c.exec (fun db => (f db).map (fun d => (d, ()))) with
        | (c, .ok ()) => (c, none)
        | (c, .error e) => (c, some e)
      | .await bs => (c, awaitErr corpus positions bs)
      | .begin =>
        match c.begin with
        | none => (c, some .operational)
        | some c => (c, none)
      | .commit =>
        match c.commit with
        | none => (c, some .operational)
        | some c => (c, none)
      | _ => (c, none)

/-- Execute steps until one raises. -/
def runSteps (corpus : Corpus) (positions : Bool) (fault : Nat → Option Err) :
    Nat → List Step → Atomic.Conn DB → Atomic.Conn DB × Option Err
  | _, [], c => (c, none)
  | i, st :: sts, c =>
    match st.exec corpus positions (fault i) c with
    | (c, some e) => (c, some e)
    | (c, none) => runSteps corpus positions fault (i + 1) sts c

/-- `Index.index` (index.py:301-556) on an index with a corpus.  `begin` inside a transaction gives `IndexingError`;
after the first `begin` every `Exception` leads to `rollback`, which itself raises when no transaction is open; a
`KeyboardInterrupt` does not. -/
def indexCall (corpus : Corpus) (cfg : IndexCfg) (s : Schedule) (c : Atomic.Conn DB) :
    Atomic.Conn DB × Except Err Unit :=
  match c.begin with
  | none => (c, .error .indexing)
  | some c =>
    match runSteps corpus cfg.positions s.fault 0 (indexPhase1 corpus cfg s ++ indexPhase2) c with
    | (c, none) => (c, .ok ())
    | (c, some e) =>
      if e.isException then
        match c.rollback with
        | none => (c, .error .operational)
        | some c => (c, .error e)
      else (c, .error e)

/-! ## Reading documents keys back -/

/-- `Index.convert_query_to_keys` (index.py:558-577): a `dict` from key to document id; an unknown id raises
`IndexError`. -/
def convertQuery (db : DB) : List Nat → Except Err (List (Val × Nat))
  | [] => .ok []
  | d :: ds =>
    match db.docKeys.find? (fun x => x.1 = d) with
    | none => .error .indexError
    | some k =>
      match convertQuery db ds with
      | .error e => .error e
      | .ok r => .ok ((k.2, d) :: r)

end Hyperreal
