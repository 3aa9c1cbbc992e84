import Verif.Model.Cli

/-!
# The files written by the exports

`csv.writer(..., dialect="excel", quoting=csv.QUOTE_ALL)` (cli.py:466-474, server.py:477-483, index.py:882-911) and the reader
of the same module.  Files are lists of characters; they are opened for writing without `newline=""`, which on POSIX systems
changes nothing (elsewhere the line ends would be doubled).
-/

namespace Hyperreal.Csv

/-- `str(value)` as the writer applies it to a value of a feature or a document key. -/
def valText : Val → String
  | .int i => toString i
  | .text s => s

/-- `str(cell)` for a cell of the table of documents (index.py:904-911); an absent field is written as `restval`, which is
empty (index.py:889-895). -/
def cellText : Option Cell → String
  | none => ""
  | some (.key k) => valText k
  | some (.cluster c) => toString c
  | some .mark => "1"
  | some (.text s) => s

/-- A quoted field: quotes are doubled (`QUOTE_ALL`, cli.py:467). -/
def field (s : String) : List Char := '"' :: s.toList.flatMap (fun c => if c = '"' then ['"', '"'] else [c]) ++ ['"']

/-- `writer.writerow(cells)` (cli.py:468, 474): the fields separated by commas, and the line end of the dialect. -/
def row (cells : List String) : List Char := [','].intercalate (cells.map field) ++ ['\r', '\n']

/-- All rows written. -/
def file (rows : List (List String)) : List Char := rows.flatMap row

/-- `[cluster_id, *row]` as text (cli.py:474, server.py:483). -/
def clusterCells (x : Int × Listed) : List String :=
  [toString x.1, toString x.2.fid, x.2.field, valText x.2.value, toString x.2.docsCount]

/-- The file written by `hyperreal export clusters` (cli.py:457-474), and, with 0, the one sent by the web server
(server.py:465-487). -/
def clustersFile (visitC : List ClusterRow → List ClusterRow) (visit : List Listed → List Listed) (db : DB) (topK : Nat) :
    List Char :=
  file (["cluster_id", "feature_id", "field", "value", "docs_count"] :: (exportClusters visitC visit db topK).map clusterCells)

/-- The file written by `Index.export_document_sample` (index.py:870-911). -/
def sampleFile (render : List Val → Except Err (List (Val × Rendered))) (tableFields : List String) (db : DB)
    (samples clusters : Dict Int Bitmap) : Except Err (List Char) := do
  let rows ← exportSample render tableFields db samples clusters
  return file (sampleColumns tableFields clusters :: rows.map (fun r => r.map cellText))

/-- `csv.reader` on a file opened with `newline=""`, as the documentation of the module asks for: line ends are `\n`, `\r` and
`\r\n` and are kept inside quotes.  `eat` tells that the character before was the `\r` that ended a record.  As
`Cli.csvRead` (cli.py:131-132), which is for the file with translated line ends. -/
def read (limit : Nat) : Bool → Cli.CsvState → List Char → List (Except Err (List String))
  | _, s, [] => if s.mode = .startRecord then [] else [.ok (s.save .startRecord).cells]
  | eat, s, c :: cs =>
    if eat = true ∧ c = '\n' then read limit false s cs
    else if (c = '\n' ∨ c = '\r') ∧ s.mode ≠ .inQuoted then
      .ok (if s.mode = .startRecord then [] else (s.save .startRecord).cells) :: read limit (c = '\r') {} cs
    else
      match s.char limit c with
      | .error e => [.error e]
      | .ok s => read limit false s cs

end Hyperreal.Csv
