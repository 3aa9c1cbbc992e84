import Verif.Model.Cli
import Verif.Model.Csv
import Verif.Model.Migrate
import Verif.Model.Pivot
import Verif.Model.SxRender
import Verif.Model.Twittersphere

/-!
# The commands of the command line, on files

Each command is a process: it opens the files it is given, works, and ends, which closes its connections.  Failures of the disk
while opening are not modelled here (see `Model/Migrate`).
-/

namespace Hyperreal.Pipeline
open Atomic Migrate Cli

/-- Opening an index file, then working on its tables; the process ends afterwards (index.py:155-191, 241-242). -/
def onIndex {α : Type} (f : File) (work : Conn DB → Conn DB × Except Err α) : File × Except Err α :=
  match openIndex Faults.none f with
  | (c, .error e) => (c.close, .error e)
  | (c, .ok _) =>
    let (c', r) := work (Conn.fresh c.close.data)
    ({ c.close with data := c'.close }, r)

/-- `hyperreal plaintext-corpus create` (cli.py:115-135) on the corpus file, with no failing statement. -/
def create (space : Char → Bool) (limit : Nat) (text : List Char) (old : PlainText.Db) : PlainText.Db × Except Err Unit :=
  let (c, r) := plaintextCreate space limit (fun _ => none) text (Conn.fresh old)
  (c.close, r)

/-- `hyperreal plaintext-corpus index` (cli.py:76-93, 164-166).  A corpus file without the table makes the first read of
`keys()` raise, after `begin`, and the transaction is rolled back. -/
def indexPlain (tokens : String → List String) (cfg : IndexCfg) (s : Schedule) (corpus : PlainText.Db) (f : File) :
    File × Except Err Unit :=
  onIndex f (fun c =>
    match corpus with
    | none => (c, .error .operational)
    | some rows => indexCall (PlainText.corpus tokens rows) cfg s c)

/-- `hyperreal model` (cli.py:344-408) on an index file. -/
def model {σ : Type} [LinearOrder σ] (luck : Luck σ) (args : ModelArgs) (confirm : Bool) (f : File) : File × Outcome :=
  match openIndex Faults.none f with
  | (c, .error e) => (c.close, .raised e)
  | (c, .ok _) =>
    let (data, r) := modelCommand luck args confirm c.close.data
    ({ c.close with data := data }, r)

/-- The number of rows that `limit ?` (index.py:1230) lets through: a negative limit is no limit in SQLite. -/
def rowLimit (db : DB) (topK : Int) : Nat := if topK < 0 then db.fc.length else topK.toNat

/-- `hyperreal export clusters` (cli.py:457-474): the file written. -/
def exportClusters (visitC : List ClusterRow → List ClusterRow) (visit : List Listed → List Listed) (topK : Int) (f : File) :
    File × Except Err (List Char) :=
  if isIndexDb f then onIndex f (fun c => (c, .ok (Csv.clustersFile visitC visit c.work (rowLimit c.work topK))))
  else (f, .error .valueError)

/-- `hyperreal export graph` (cli.py:416-444): the graph handed to `networkx.write_graphml`, whose file format is not modelled.
Without a graph nothing is written: the file is opened by the last statement. -/
def exportGraph {σ : Type} [LinearOrder σ] (rd : Rat → σ) (visitC : List ClusterRow → List ClusterRow)
    (visit : List Listed → List Listed)
    (completed : List (Int × List (Int × σ × Nat)) → List (Int × List (Int × σ × Nat)))
    (topK : Int) (includeField : Bool) (f : File) : File × Except Err (Graph σ) :=
  if isIndexDb f then
    onIndex f (fun c => (c, cooccurrenceGraph rd visitC visit completed c.work (rowLimit c.work topK) includeField))
  else (f, .error .valueError)

/-- `render_docs_table` of a plain text corpus (corpus.py:223-232), the keys being values. -/
def plainRender (db : PlainText.Db) (ks : List Val) : Except Err (List (Val × Rendered)) :=
  ks.mapM (fun k =>
    match PlainText.asKey k with
    | none => .error .indexError
    | some n => (PlainText.docOf db n).map (fun t => (k, [("text", Cell.text t)])))

/-- The command that `make_csv_exporter` makes (cli.py:26-53): the file written.  `render` is `render_docs_table` of the corpus
and `fields` its `table_fields`. -/
def sampleWith (render : List Val → Except Err (List (Val × Rendered))) (fields : List String)
    (visitC : List ClusterRow → List ClusterRow) (pick : Int → Nat → Nat → List Nat) (perCluster : Int) (f : File) :
    File × Except Err (List Char) :=
  if isIndexDb f then
    onIndex f (fun c => (c, do
      let (samples, clusters) ← structuredDocSample visitC pick c.work perCluster []
      Csv.sampleFile render fields c.work samples clusters))
  else (f, .error .valueError)

/-- `hyperreal plaintext-corpus sample` (cli.py:37-51, 168-170): the file written. -/
def samplePlain (visitC : List ClusterRow → List ClusterRow) (pick : Int → Nat → Nat → List Nat) (perCluster : Int)
    (corpus : PlainText.Db) (f : File) : File × Except Err (List Char) :=
  sampleWith (plainRender corpus) ["text"] visitC pick perCluster f

/-- `hyperreal stackexchange-corpus add-site` (cli.py:178-204) on the corpus file, with no failing statement. -/
def addSite (d : SX.Dump) (url : String) (old : SX.Db) : SX.Db × Except Err Unit :=
  let (c, r) := SX.addSiteData (fun _ => none) d url (Conn.fresh old)
  (c.close, r)

/-- `hyperreal stackexchange-corpus add-site` (cli.py:178-204), once for each of the dumps, on the same corpus file; it stops at
the first one that fails. -/
def addSites : List (SX.Dump × String) → SX.Db → SX.Db × Except Err Unit
  | [], old => (old, .ok ())
  | (d, url) :: rest, old =>
    match addSite d url old with
    | (db, .ok ()) => addSites rest db
    | (db, .error e) => (db, .error e)

/-- `hyperreal stackexchange-corpus index` (cli.py:56-95, 237-239). -/
def indexSx (t : SX.TextOps) (scan : List SX.Post → List SX.Post) (cfg : IndexCfg) (s : Schedule) (corpus : SX.Db) (f : File) :
    File × Except Err Unit :=
  onIndex f (indexCall (SX.corpus t scan corpus) cfg s)

/-- `hyperreal twittersphere-corpus index` (cli.py:56-95, 247-249): the corpus is opened first. -/
def indexTw (t : TW.TextOps) (cfg : IndexCfg) (s : Schedule) (corpus : TW.Db) (f : File) : File × Except Err Unit :=
  match TW.opens corpus with
  | .error e => (f, .error e)
  | .ok _ => onIndex f (indexCall (TW.corpus t corpus) cfg s)

/-- `hyperreal stackexchange-corpus sample` (cli.py:26-53, 233-235): the file written. -/
def sampleSx (order : List String → List String) (visitC : List ClusterRow → List ClusterRow)
    (pick : Int → Nat → Nat → List Nat) (perCluster : Int) (corpus : SX.Db) (f : File) : File × Except Err (List Char) :=
  sampleWith (SX.renderValues order corpus) SX.tableFields visitC pick perCluster f

end Hyperreal.Pipeline
