import Verif.Model.Indexing

/-!
# Model of opening an index: `_index_schema.migrate` and `Index.__init__`

A database file is its version and application numbers, its journal mode, the objects of its schema with the columns of
the tables, and the rows.  A statement either fails and changes nothing, or has its effect; besides, any statement
may fail for outside reasons (disk, locks, the process being killed), which is what the fault oracles are for.
-/

namespace Hyperreal
namespace Migrate

/-- The kinds of objects listed in `sqlite_master`. -/
inductive Kind where
  | table | index | trigger | view
  deriving DecidableEq, Repr

/-- A database file.  `columns` is meant for the tables listed in `objects` only.  The rows (`data`) of a table that is
not there, or the cells of a column that is not there, are unspecified: creating the table or the column sets
them. -/
structure File where
  version : Int
  applicationId : Int
  wal : Bool
  objects : List (Kind × String)
  columns : String → List String
  settings : List (String × Int)
  data : DB

/-- Is there a table of this name? -/
def File.hasTable (f : File) (n : String) : Bool := (Kind.table, n) ∈ f.objects

/-- A file that does not exist yet, or has nothing in it. -/
def File.empty : File := ⟨0, 0, false, [], fun _ => [], [], {}⟩

/-- A new table has no rows. -/
def clearTable (n : String) (d : DB) : DB :=
  if n = "doc_key" then { d with docKeys := [] }
  else if n = "inverted_index" then { d with features := [] }
  else if n = "position_doc_map" then { d with posDocMap := [] }
  else if n = "position_index" then { d with posIndex := [] }
  else if n = "field_summary" then { d with fieldSummary := [] }
  else if n = "cluster" then { d with clusters := [] }
  else if n = "feature_cluster" then { d with fc := [] }
  else if n = "changed_cluster" then { d with changed := [] }
  else d

/-- A new column holds its default in every row (_index_schema.py:175-177, 187-188, 195).  Simplification: the NULL in
`field_summary.position_count` is modelled as 0. -/
def fillColumn (t col : String) (d : DB) : DB :=
  if t = "cluster" ∧ col = "docs_count" then { d with clusters := d.clusters.map (fun k => { k with docsCount := 0 }) }
  else if t = "cluster" ∧ col = "weight" then { d with clusters := d.clusters.map (fun k => { k with weight := 0 }) }
  else if t = "cluster" ∧ col = "doc_ids" then { d with clusters := d.clusters.map (fun k => { k with docs := none }) }
  else if t = "cluster" ∧ col = "pinned" then { d with clusters := d.clusters.map (fun k => { k with pinned := false }) }
  else if t = "feature_cluster" ∧ col = "pinned" then { d with fc := d.fc.map (fun r => { r with pinned := false }) }
  else if t = "field_summary" ∧ col = "position_count" then
    { d with fieldSummary := d.fieldSummary.map (fun r => { r with positionCount := 0 }) }
  else d

/-- The SQL statements used by `migrate`. -/
inductive Stmt where
  | createTable (name : String) (cols : List String)   -- create table if not exists
  | createIndex (name table : String) (cols : List String)  -- create index if not exists
  | createTrigger (name table : String)                 -- create trigger if not exists
  | drop (kind : Kind) (name : String)                  -- drop ... if exists
  | addColumn (table col : String)                      -- alter table ... add column
  | replaceSetting (key : String) (value : Int)
  | setVersion (v : Int)                                -- pragma user_version = v
  | setApplicationId (v : Int)                          -- pragma application_id = v
  | walMode                                             -- pragma journal_mode = WAL
  | markAllChanged                                      -- insert into changed_cluster select cluster_id from cluster
  | clearFieldSummary                                   -- delete from field_summary
  | fillFieldSummary                                    -- insert into field_summary select ...
  deriving DecidableEq, Repr

/-- When SQLite refuses a statement: a missing table or column, a column that is already there, a violated key. -/
def Stmt.refused (s : Stmt) (f : File) : Option Err :=
  match s with
  | .createIndex n t cols =>
    if (Kind.index, n) ∈ f.objects then none
    else if f.hasTable t = true ∧ ∀ c ∈ cols, c ∈ f.columns t then none else some .operational
  | .createTrigger n t =>
    if (Kind.trigger, n) ∈ f.objects then none else if f.hasTable t = true then none else some .operational
  | .addColumn t c => if f.hasTable t = true ∧ c ∉ f.columns t then none else some .operational
  | .replaceSetting _ _ => if f.hasTable "settings" = true then none else some .operational
  | .markAllChanged =>
    if f.hasTable "cluster" = true ∧ f.hasTable "changed_cluster" = true then
      if f.data.clusters.any (fun k => k.cid ∈ f.data.changed) then some .integrity else none
    else some .operational
  | .clearFieldSummary => if f.hasTable "field_summary" = true then none else some .operational
  | .fillFieldSummary =>
    if f.hasTable "field_summary" = true ∧ f.hasTable "inverted_index" = true ∧ f.hasTable "position_index" = true then
      -- five values for the columns of the table, whose key is the field
      if (f.columns "field_summary").length = 5 then
        if f.data.fieldSummary = [] ∨ f.data.features = [] then none else some .integrity
      else some .operational
    else some .operational
  | _ => none

/-- The effect of a statement that is not refused. -/
def Stmt.effect (s : Stmt) (f : File) : File :=
  match s with
  | .createTable n cols =>
    if f.hasTable n then f
    else { f with
      objects := f.objects ++ [(.table, n)]
      columns := Function.update f.columns n cols
      data := clearTable n f.data
      settings := if n = "settings" then [] else f.settings }
  | .createIndex n _ _ => if (Kind.index, n) ∈ f.objects then f else { f with objects := f.objects ++ [(.index, n)] }
  | .createTrigger n _ => if (Kind.trigger, n) ∈ f.objects then f else { f with objects := f.objects ++ [(.trigger, n)] }
  | .drop k n => { f with objects := f.objects.filter (fun o => o ≠ (k, n)) }
  | .addColumn t c => { f with columns := Function.update f.columns t (f.columns t ++ [c]), data := fillColumn t c f.data }
  | .replaceSetting k v => { f with settings := f.settings.filter (fun s => s.1 ≠ k) ++ [(k, v)] }
  | .setVersion v => { f with version := v }
  | .setApplicationId v => { f with applicationId := v }
  | .walMode => { f with wal := true }
  | .markAllChanged => { f with data := { f.data with changed := f.data.changed ++ f.data.clusters.map (·.cid) } }
  | .clearFieldSummary => { f with data := { f.data with fieldSummary := [] } }
  | .fillFieldSummary => { f with data := f.data.writeFieldSummary }

/-- A statement as the connection executes it. -/
def Stmt.run (s : Stmt) (f : File) : Except Err (File × Unit) :=
  match s.refused f with
  | some e => .error e
  | none => .ok (s.effect f, ())

/-- `CURRENT_SCHEMA_VERSION` (_index_schema.py:17). -/
def currentVersion : Int := 10

/-- `MAGIC_APPLICATION_ID` (_index_schema.py:16). -/
def magicId : Int := 715973853

/-- `CURRENT_SCHEMA` split into statements (_index_schema.py:19-170). -/
def schema : List Stmt := [
  .createTable "settings" ["key", "value"],
  .replaceSetting "position_window_size" 0,
  .createTable "doc_key" ["doc_id", "doc_key"],
  .createTable "inverted_index" ["feature_id", "field", "value", "docs_count", "doc_ids"],
  .createTable "position_doc_map" ["field", "first_doc_id", "last_doc_id", "docs_count", "doc_ids", "doc_boundaries"],
  .createTable "position_index" ["feature_id", "first_doc_id", "position_count", "positions"],
  .createTable "field_summary" ["field", "distinct_values", "min_value", "max_value", "position_count"],
  .drop .table "skipgram_count",
  .createIndex "docs_counts" "inverted_index" ["docs_count"],
  .createIndex "field_docs_counts" "inverted_index" ["field", "docs_count"],
  .createTable "cluster" ["cluster_id", "feature_count", "docs_count", "weight", "doc_ids", "pinned"],
  .createTable "feature_cluster" ["feature_id", "cluster_id", "docs_count", "pinned"],
  .createIndex "cluster_features" "feature_cluster" ["cluster_id", "docs_count"],
  .createTable "changed_cluster" ["cluster_id"],
  .drop .trigger "mark_cluster_changed",
  .drop .trigger "ensure_cluster",
  .drop .trigger "delete_feature_cluster",
  .drop .trigger "ensure_cluster_update",
  .drop .trigger "update_cluster_feature_counts",
  .createTrigger "insert_feature_checks" "feature_cluster",
  .createTrigger "update_feature_checks" "feature_cluster",
  .createTrigger "delete_feature_checks" "feature_cluster",
  .setVersion currentVersion,
  .setApplicationId magicId]

/-- `migrations` in ascending order of version (_index_schema.py:172-220): version, steps before and after the schema. -/
def migrations : List (Int × List Stmt × List Stmt) := [
  (4, [.addColumn "cluster" "docs_count", .addColumn "cluster" "weight", .addColumn "cluster" "doc_ids"],
      [.markAllChanged]),
  (5, [], []),
  (6, [], []),
  (7, [.addColumn "cluster" "pinned", .addColumn "feature_cluster" "pinned"], []),
  (8, [], []),
  (9, [.addColumn "field_summary" "position_count"], [.clearFieldSummary, .fillFieldSummary])]

/-- What the connection is asked to do while an index is opened. -/
inductive Step where
  | begin
  | sql (s : Stmt)
  | commit
  | housekeeping  -- `_update_changed_clusters` (index.py:174)

/-- One step on the connection.  The housekeeping reads the committed inverted index in its workers. -/
def Step.run (s : Step) (c : Atomic.Conn File) : Atomic.Conn File × Option Err :=
  match s with
  | .begin =>
    match c.begin with
    | some c => (c, none)
    | none => (c, some .operational)
  | .commit =>
    match c.commit with
    | some c => (c, none)
    | none => (c, some .operational)
  | .sql s =>
    match c.exec s.run with
    | (c, .ok _) => (c, none)
    | (c, .error e) => (c, some e)
  | .housekeeping =>
    match DB.updateChanged none c.committed.data c.work.data with
    | (d, some e) => (({ c with work := { c.work with data := d } } : Atomic.Conn File).log, some e)
    | (d, none) => (({ c with work := { c.work with data := d } } : Atomic.Conn File).log, none)

/-- Steps one after the other; `fault i` is an exception that step `i` meets for outside reasons (or the death of the
process at that point). -/
def runSteps (fault : Nat → Option Err) : List Step → Atomic.Conn File → Atomic.Conn File × Option Err
  | [], c => (c, none)
  | s :: rest, c =>
    match fault 0 with
    | some e => (c, some e)
    | none =>
      match s.run c with
      | (c, some e) => (c, some e)
      | (c, none) => runSteps (fun i => fault (i + 1)) rest c

/-- The statements that upgrade from version `v` (_index_schema.py:265-286). -/
def upgrade (v : Int) : List Stmt :=
  let m := migrations.filter (fun x => v ≤ x.1)
  m.flatMap (fun x => x.2.1) ++ schema ++ m.flatMap (fun x => x.2.2)

/-- `begin`, the statements, `commit`. -/
def transaction (l : List Stmt) : List Step := [.begin] ++ l.map .sql ++ [.commit]

/-- `_index_schema.migrate` (_index_schema.py:231-291).  On a database without version but with tables the code means to
raise `MigrationError`; the message refers to a name that does not exist, so it is `NameError`. -/
def migrate (fault : Nat → Option Err) (c : Atomic.Conn File) : Atomic.Conn File × Except Err Bool :=
  if c.work.version = 0 then
    if c.work.objects.length > 0 then (c, .error .nameError)
    else
      match runSteps fault (transaction schema) c with
      | (c, some e) => (c, .error e)
      | (c, none) => (c, .ok false)
  else if c.work.version = currentVersion then (c, .ok false)
  else if c.work.version ∈ migrations.map (·.1) then
    match runSteps fault (transaction (upgrade c.work.version)) c with
    | (c, some e) => (c, .error e)
    | (c, none) => (c, .ok true)
  else (c, .error .migration)

/-- The outside failures met while opening: at the pragmas, in `migrate`, and after it. -/
structure Faults where
  pragma : Nat → Option Err
  migrate : Nat → Option Err
  settle : Nat → Option Err

/-- No outside failures. -/
def Faults.none : Faults := ⟨fun _ => Option.none, fun _ => Option.none, fun _ => Option.none⟩

/-- `Index.__init__` (index.py:155-180) up to the reading of the settings: set the pragmas, migrate, and after a migration
bring the cluster summaries up to date.  The pragmas `synchronous` and `foreign_keys` concern the connection only
and are not modelled.  Returns whether a migration ran. -/
def openIndex (fault : Faults) (f : File) : Atomic.Conn File × Except Err Bool :=
  match runSteps fault.pragma [.sql .walMode] (Atomic.Conn.fresh f) with
  | (c, some e) => (c, .error e)
  | (c, none) =>
    match migrate fault.migrate c with
    | (c, .error e) => (c, .error e)
    | (c, .ok false) => (c, .ok false)
    | (c, .ok true) =>
      match runSteps fault.settle [.begin, .housekeeping, .commit] c with
      | (c, some e) => (c, .error e)
      | (c, none) => (c, .ok true)

/-- The file an opening leaves: everything not committed is lost when it fails (the connection is dropped) or the process
dies. -/
def opened (fault : Faults) (f : File) : File := (openIndex fault f).1.close

/-- `Index.is_index_db` (index.py:217-227) for an existing file. -/
def isIndexDb (f : File) : Bool := f.applicationId = magicId

end Migrate
end Hyperreal
