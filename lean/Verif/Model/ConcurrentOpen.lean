import Verif.Model.Concurrent
import Verif.Model.Migrate

/-!
# Several openings of one file

`Index.__init__` and `_index_schema.migrate` cut into SQL commands, to run next to others on the same file
(`Model.Concurrent`).  The questions `migrate` asks (version, number of objects) are transactions of their own, before
the transaction that creates or upgrades the tables.
-/

namespace Hyperreal.Migrate
open Atomic Concurrent

/-- What a command answers: nothing, the version, the number of objects, or (at the end) whether a migration ran. -/
inductive Seen where
  | nothing
  | version (v : Int)
  | count (n : Nat)
  | opened (migrated : Bool)
  deriving DecidableEq

/-- `_update_changed_clusters` (index.py:174) on a file. -/
def settleFile : Housekeeping File := fun committed work =>
  ({ work with data := (DB.updateChanged none committed.data work.data).1 },
    (DB.updateChanged none committed.data work.data).2)

/-- Steps one after the other, then `k`; an exception (of the step or from outside, `fault`) ends the code, the
transaction stays open until the connection is closed. -/
def stepsCode : (Nat → Option Err) → List Step → Code File Seen → Code File Seen
  | _, [], k => k
  | fault, s :: rest, k =>
    match fault 0 with
    | some e => .done (.error e)
    | none =>
      match s with
      | .begin => .cmd .begin fun e =>
        match e with
        | some e => .done (.error e)
        | none => stepsCode (fun i => fault (i + 1)) rest k
      | .commit => .cmd .commit fun e =>
        match e with
        | some e => .done (.error e)
        | none => stepsCode (fun i => fault (i + 1)) rest k
      | .housekeeping => .cmd (.settle settleFile) fun e =>
        match e with
        | some e => .done (.error e)
        | none => stepsCode (fun i => fault (i + 1)) rest k
      | .sql s => .exec (fun f => (s.run f).map (fun r => (r.1, .nothing))) fun r =>
        match r with
        | .error e => .done (.error e)
        | .ok _ => stepsCode (fun i => fault (i + 1)) rest k

/-- After a migration (index.py:172-175). -/
def settleCode (fault : Faults) : Code File Seen :=
  stepsCode fault.settle [.begin, .housekeeping, .commit] (.done (.ok (.opened true)))

/-- _index_schema.py:253-263: create the schema. -/
def createCode (fault : Faults) : Code File Seen :=
  stepsCode fault.migrate (transaction schema) (.done (.ok (.opened false)))

/-- _index_schema.py:241-291: what `migrate` does once it knows the version.  (The last branch of the `match` cannot be
reached: the question is answered with a number.) -/
def knowCode (fault : Faults) (reads : Nat → Option Err) (v : Int) : Code File Seen :=
  if v = 0 then
    match reads 1 with
    | some e => .done (.error e)
    | none => .exec (fun f => .ok (f, .count f.objects.length)) fun r =>
      match r with
      | .ok (.count n) => if n > 0 then .done (.error .nameError) else createCode fault
      | .error e => .done (.error e)
      | .ok _ => .done (.error .typeError)
  else if v = currentVersion then .done (.ok (.opened false))
  else if v ∈ migrations.map (·.1) then stepsCode fault.migrate (transaction (upgrade v)) (settleCode fault)
  else .done (.error .migration)

/-- _index_schema.py:239: ask for the version. -/
def lookCode (fault : Faults) (reads : Nat → Option Err) : Code File Seen :=
  match reads 0 with
  | some e => .done (.error e)
  | none => .exec (fun f => .ok (f, .version f.version)) fun r =>
    match r with
    | .ok (.version v) => knowCode fault reads v
    | .error e => .done (.error e)
    | .ok _ => .done (.error .typeError)

/-- `Index.__init__` (index.py:155-175) as commands: the pragma, `migrate`, the housekeeping.  `fault` and `reads` are the
outside failures (a refused command, `SQLITE_BUSY`, among them). -/
def openCode (fault : Faults) (reads : Nat → Option Err) : Code File Seen :=
  stepsCode fault.pragma [.sql .walMode] (lookCode fault reads)

end Hyperreal.Migrate
