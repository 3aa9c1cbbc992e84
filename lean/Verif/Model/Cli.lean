import Verif.Model.Refine
import Verif.Model.Query
import Verif.Model.PlainText

/-!
# Command line (cli.py)

A command is a function of the files it is given.  Option parsing, messages and the process pool are not modelled; that the
index file has the current schema version is covered by `Model/Migrate`.
-/

namespace Hyperreal.Cli
open Atomic

/-- The options of `hyperreal model` (cli.py:278-357) with their defaults.  `--min-docs` is taken as not negative;
`--move-acceptance-probability` and `--random-seed` only act through the random draws. -/
structure ModelArgs where
  iterations : Int := 10
  clusters : Option Int := none
  minDocs : Nat := 100
  fields : List String := []
  restart : Bool := false
  tolerance : Rat := 1 / 100
  minFeatures : Nat := 1
  groupBatches : Option Nat := none
  groupTopK : Nat := 2

/-- How a command ends. -/
inductive Outcome where
  | done
  | aborted
  | raised (e : Err)
  deriving DecidableEq

/-- The arguments handed to `refine_clusters` (cli.py:400-408). -/
def ModelArgs.refineArgs (args : ModelArgs) (clusters : Option Int) : RefineArgs where
  iterations := args.iterations
  clusterIds := []
  minFeatures := args.minFeatures
  probe := none
  target := clusters
  tolerance := args.tolerance
  groupBatches := args.groupBatches
  groupTopK := args.groupTopK

/-- What is not determined by the file: the shuffle, the scores (up to rounding) and the draws of the refinement. -/
structure Luck (σ : Type) [LinearOrder σ] where
  shuffle : List (Nat × Nat) → List (Nat × Nat)
  score : RefineArgs → DB → Nat → Finset Nat → Nat → Clustering → Except Err (Scores σ Int)
  chance : Chance

variable {σ : Type} [LinearOrder σ]

/-- The end of the command (cli.py:399-408): refine, then the process ends and with it the connection. -/
def refineAndClose (luck : Luck σ) (args : ModelArgs) (clusters : Option Int) (c : Conn DB) : DB × Outcome :=
  let ra := args.refineArgs clusters
  match (refineClusters (luck.score ra) luck.chance ra).exec none c with
  | (c, .ok _) => (c.close, .done)
  | (c, .error e) => (c.close, .raised e)

/-- `initialise_clusters(...)` with `clusters or 64`, then the refinement (cli.py:378-386, 389-397).  A negative number of clusters
makes `range(n)` empty, as 0 does. -/
def createAndRefine (luck : Luck σ) (args : ModelArgs) (c : Conn DB) : DB × Outcome :=
  let clusters := orDefault args.clusters 64
  match (ModelOp.initialise clusters.toNat args.minDocs args.fields luck.shuffle).exec none c with
  | (c, .ok _) => refineAndClose luck args (some clusters) c
  | (c, .error e) => (c.close, .raised e)

/-- `hyperreal model` (cli.py:344-408) on an index file; `confirm` is the answer to the question whether to delete the
present model. -/
def modelCommand (luck : Luck σ) (args : ModelArgs) (confirm : Bool) (db : DB) : DB × Outcome :=
  if clusterIds db ≠ [] then
    if args.restart then
      if confirm then createAndRefine luck args (Conn.fresh db) else (db, .aborted)
    else refineAndClose luck args args.clusters (Conn.fresh db)
  else createAndRefine luck args (Conn.fresh db)

/-! ## `hyperreal plaintext-corpus create` -/

/-- Where the reader of CPython's `csv` module is in the present record. -/
inductive CsvMode where
  | startRecord
  | startField
  | inField
  | inQuoted
  | quoteInQuoted
  deriving DecidableEq

/-- The record read so far: complete cells, and the characters of the present cell. -/
structure CsvState where
  mode : CsvMode := .startRecord
  cells : List String := []
  cell : List Char := []

/-- One character more in the present cell; a cell with more than `limit` characters (131072) is an error. -/
def CsvState.add (limit : Nat) (s : CsvState) (c : Char) (mode : CsvMode) : Except Err CsvState :=
  if s.cell.length ≥ limit then .error .valueError else .ok ⟨mode, s.cells, s.cell ++ [c]⟩

/-- The present cell ends. -/
def CsvState.save (s : CsvState) (mode : CsvMode) : CsvState := ⟨mode, s.cells ++ [String.ofList s.cell], []⟩

/-- A character that does not end the line: delimiter `,`, quote character `"`, doubled quotes (the dialect used by
`csv.reader(infile)`, cli.py:132). -/
def CsvState.char (limit : Nat) (s : CsvState) (c : Char) : Except Err CsvState :=
  match s.mode with
  | .startRecord | .startField =>
    if c = '"' then .ok { s with mode := .inQuoted }
    else if c = ',' then .ok (s.save .startField)
    else s.add limit c .inField
  | .inField => if c = ',' then .ok (s.save .startField) else s.add limit c .inField
  | .inQuoted => if c = '"' then .ok { s with mode := .quoteInQuoted } else s.add limit c .inQuoted
  | .quoteInQuoted =>
    if c = '"' then s.add limit c .inQuoted
    else if c = ',' then .ok (s.save .startField)
    else s.add limit c .inField

/-- The rows `csv.reader` yields for a file (cli.py:131-132), given as its characters with `\n` as line end (text mode
translates the others); an error ends the iteration. -/
def csvRead (limit : Nat) : CsvState → List Char → List (Except Err (List String))
  | s, [] => if s.mode = .startRecord then [] else [.ok (s.save .startRecord).cells]
  | s, c :: cs =>
    if c = '\n' ∧ s.mode ≠ .inQuoted then
      .ok (if s.mode = .startRecord then [] else (s.save .startRecord).cells) :: csvRead limit {} cs
    else
      match s.char limit c with
      | .error e => [.error e]
      | .ok s => csvRead limit s cs

/-- `(line[0] for line in f if line and line[0].strip())` (cli.py:134): what the source yields for a row; `space` are the
characters that `strip` removes. -/
def rowItem (space : Char → Bool) : Except Err (List String) → Option PlainText.Item
  | .error e => some (.raise e)
  | .ok [] => none
  | .ok (t :: _) => if t.toList.all space then none else some (.text (some t))

/-- `hyperreal plaintext-corpus create` (cli.py:115-135) on a corpus file, `fault` being failures of the database. -/
def plaintextCreate (space : Char → Bool) (limit : Nat) (fault : Nat → Option Err) (file : List Char)
    (c : Conn PlainText.Db) : Conn PlainText.Db × Except Err Unit :=
  PlainText.replaceDocs fault ((csvRead limit {} file).filterMap (rowItem space)) c

end Hyperreal.Cli
