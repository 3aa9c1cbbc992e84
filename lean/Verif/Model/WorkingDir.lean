import Verif.Model.Indexing

/-!
# `Index.index(working_dir=...)` (index.py:301-556)

The directory for the temporary database: `tempdir = working_dir or tempfile.TemporaryDirectory()` (index.py:348), whose
`.name` is used for the path of `temp_index.db` (index.py:349), and which is cleaned up in the end (index.py:554).
-/

namespace Hyperreal

/-- `temp_index.db` once a worker has written to it: the tables `inverted_index_segment` and `batch_position`
(index.py:2117-2145), and whether the index `field_value` was created in it (index.py:442-448). -/
structure TempFile where
  segs : List SegRow
  pos : List PosDocRow
  indexed : Bool := false

/-- What is passed as `working_dir` (index.py:304). -/
inductive WorkDir where
  /-- `None`: a temporary directory of its own (index.py:348). -/
  | default
  /-- A text: it has neither `.name` nor `.cleanup`. -/
  | text (s : String)
  /-- A `pathlib.Path`: `.name` is its last component, it has no `.cleanup`. -/
  | path (name : String)
  /-- A `tempfile.TemporaryDirectory`: `.name` is the directory, `.cleanup()` removes it. -/
  | temporary (name : String)
  deriving DecidableEq

/-- The directories that exist, by the name under which `os.path.join(tempdir.name, ...)` finds them, with the
`temp_index.db` in them. -/
abbrev Dirs := List (String × Option TempFile)

namespace Dirs

/-- Writing `temp_index.db` in an existing directory. -/
def write (dirs : Dirs) (name : String) (file : Option TempFile) : Dirs :=
  dirs.map (fun d => if d.1 = name then (name, file) else d)

/-- `TemporaryDirectory.cleanup()`: a directory that is gone already is no error. -/
def remove (dirs : Dirs) (name : String) : Dirs := dirs.filter (fun d => d.1 ≠ name)

end Dirs

/-- `_index_docs` (index.py:2056-2189) in the directory: without the directory `connect_sqlite` fails (index.py:2062), and a row
of `batch_position` with the field and first document of one that is there fails (index.py:2143, 2147-2161). -/
def indexDocsIn (dir : Option (Option TempFile)) (corpus : Corpus) (positions : Bool) (b : List (Nat × Val)) : Except Err BatchOut :=
  match dir with
  | none => .error .operational
  | some file =>
    match indexDocs corpus positions b with
    | .error e => .error e
    | .ok o =>
      if o.pos.any (fun r => ((file.map (·.pos)).getD []).any (fun p => p.field = r.field && p.firstDoc = r.firstDoc)) then
        .error .integrity
      else .ok o

/-- The first exception among the awaited results (`f.result()`, index.py:397-398, 432-433); see `awaitErr`. -/
def awaitErrIn (dir : Option (Option TempFile)) (corpus : Corpus) (positions : Bool) : List (List (Nat × Val)) → Option Err
  | [] => none
  | b :: bs =>
    match indexDocsIn dir corpus positions b with
    | .error e => some e
    | .ok _ => awaitErrIn dir corpus positions bs

/-- The steps of the dispatch loop; see `Event.step`. -/
def Event.stepIn (dir : Option (Option TempFile)) (corpus : Corpus) (positions : Bool) : Event → Step
  | .await bs => .sql (fun db => match awaitErrIn dir corpus positions bs with | some e => .error e | none => .ok db)
  | e => e.step

/-- The rows found in the temporary database when the batches `bs` have been written (index.py:2116-2184): those that were there,
and the new ones. -/
def filled (dir : Option (Option TempFile)) (corpus : Corpus) (positions : Bool) (bs : List (List (Nat × Val))) : TempFile :=
  let old : TempFile := (dir.getD none).getD ⟨[], [], false⟩
  let rows := bs.filterMap (fun b => (indexDocsIn dir corpus positions b).toOption)
  ⟨old.segs ++ rows.flatMap (·.segs), old.pos ++ rows.flatMap (·.pos), old.indexed⟩

/-- The temporary database left when the batches `bs` have been written: without any there is none, unless there was one. -/
def leftover (dir : Option (Option TempFile)) (corpus : Corpus) (positions : Bool) (bs : List (List (Nat × Val))) : Option TempFile :=
  if (dir.getD none).isNone ∧ bs.filterMap (fun b => (indexDocsIn dir corpus positions b).toOption) = [] then none
  else some (filled dir corpus positions bs)

/-- index.py:354-534 with the temporary database in the directory; see `indexPhase1`. -/
def indexPhase1In (dir : Option (Option TempFile)) (corpus : Corpus) (cfg : IndexCfg) (s : Schedule) : List Step :=
  let all := submitted (indexEvents corpus cfg s).1
  let file := filled dir corpus cfg.positions all
  let segs := s.segOrder file.segs
  let keys := s.groupOrder ((segs.map (fun r => (r.field, r.value))).dedup)
  let await := fun bs => Step.sql (fun db =>
    match awaitErrIn dir corpus cfg.positions bs with | some e => .error e | none => .ok db)
  [.sql (fun db => .ok { db with docKeys := [] })] ++
  (indexEvents corpus cfg s).1.map (Event.stepIn dir corpus cfg.positions) ++
  [.sql (fun db => .ok db.zeroFeatures),
   .sql (fun db => .ok { db with posDocMap := [] }),
   .sql (fun db => .ok { db with posIndex := [] }),
   await (indexEvents corpus cfg s).2,
   -- attach and create index (index.py:439-448): the segment table must exist and not have the index
   .sql (fun db => if all = [] ∧ (dir.getD none).isNone then .error .operational
                   else if file.indexed then .error .operational else .ok db),
   .sql (fun db => .ok (db.mergeSegments segs keys)),
   .sql (DB.forRows DB.insertPosition (segs.filter (fun r => 0 < r.posCount))),
   .sql (DB.forRows DB.insertPosDoc (s.posOrder file.pos)),
   .sql (fun db => .ok db.refreshFcCounts),
   .sql (fun db => .ok { db with fieldSummary := [] }),
   .sql DB.insertFieldSummary,
   .sql DB.markAllChanged]

/-- The transactions of `index` in the directory (index.py:343-546): the connection and exception, and the temporary database
afterwards.  The index `field_value` in it is part of the first transaction.  When the call fails before, `kept` says which
batches have been written nevertheless. -/
def indexCallIn (corpus : Corpus) (cfg : IndexCfg) (s : Schedule) (kept : List (List (Nat × Val)) → List (List (Nat × Val)))
    (dir : Option (Option TempFile)) (c : Atomic.Conn DB) : Atomic.Conn DB × Option Err × Option TempFile :=
  let all := submitted (indexEvents corpus cfg s).1
  let first := indexPhase1In dir corpus cfg s
  match runSteps corpus cfg.positions s.fault 0 (first ++ [.commit]) c with
  | (c, some e) => ((if e.isException then (c.rollback.getD c) else c), some e, leftover dir corpus cfg.positions (kept all))
  | (c, none) =>
    let file := some { filled dir corpus cfg.positions all with indexed := true }
    match runSteps corpus cfg.positions s.fault (first.length + 1) (indexPhase2.drop 1) c with
    | (c, none) => (c, none, file)
    | (c, some e) =>
      if e.isException then
        match c.rollback with
        | none => (c, some .operational, file)
        | some c => (c, some e, file)
      else (c, some e, file)

/-- `Index.index(working_dir=w)` (index.py:301-556).  Without a `.name` the call fails in the transaction just begun; a
`working_dir` without `.cleanup` makes the call raise in the end, whatever happened before (index.py:547-554). -/
def indexIn (corpus : Corpus) (cfg : IndexCfg) (s : Schedule) (kept : List (List (Nat × Val)) → List (List (Nat × Val)))
    (w : WorkDir) (dirs : Dirs) (c : Atomic.Conn DB) : Atomic.Conn DB × Dirs × Except Err Unit :=
  match w with
  | .default =>
    match indexCall corpus cfg s c with
    | (c, r) => (c, dirs, r)
  | .text _ =>
    match c.begin with
    | none => (c, dirs, .error .indexing)
    | some c => (c.rollback.getD c, dirs, .error .attributeError)
  | .path name =>
    match c.begin with
    | none => (c, dirs, .error .indexing)
    | some c =>
      match indexCallIn corpus cfg s kept (dirs.lookup name) c with
      | (c, _, file) =>
        (c, dirs.write name file, .error .attributeError)
  | .temporary name =>
    match c.begin with
    | none => (c, dirs, .error .indexing)
    | some c =>
      match indexCallIn corpus cfg s kept (dirs.lookup name) c with
      | (c, e, _) => (c, dirs.remove name, match e with | some e => .error e | none => .ok ())

end Hyperreal
