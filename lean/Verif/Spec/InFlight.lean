import Verif.Model.Indexing

/-!
# Specification: batches in flight (C77)

A history of the dispatch loop is the list of what the main process did: read a key of the corpus, submit a batch to
the pool, or collect the results of batches that are done.
-/

namespace Hyperreal.Spec

/-- The keys of the corpus that were read. -/
def keysRead (history : List Event) : List (Nat × Val) :=
  history.filterMap (fun e => match e with
    | .insert k => some k
    | _ => none)

/-- The batches that were given to the pool. -/
def batchesStarted (history : List Event) : List (List (Nat × Val)) :=
  history.filterMap (fun e => match e with
    | .submit b => some b
    | _ => none)

/-- The batches that are done and whose result was collected. -/
def batchesDone (history : List Event) : List (List (Nat × Val)) :=
  history.flatMap (fun e => match e with
    | .await bs => bs
    | _ => [])

/-- `wait(..., return_when="FIRST_COMPLETED")` returns when something is done. -/
def Waits (s : Schedule) : Prop := ∀ fs, fs ≠ [] → (s.pick fs).1 ≠ []

end Hyperreal.Spec
