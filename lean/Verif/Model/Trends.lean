import Verif.Model.Query
import Verif.Model.Scoring

/-!
# The trend plots of the example script (examples/stackoverflow/visuals.py)

The script draws, for groups of clusters, the share of the documents of each month that belong to the cluster.  Drawing itself and the
parsing of the dates on the x axis are not modelled: a point has the value of the field as its x.
-/

namespace Hyperreal.Trends

/-- `" ".join([r[2] for r in features] + ["..."])` (visuals.py:84-87, 119-122). -/
def label (values : List String) : String := " ".intercalate (values ++ ["..."])

/-- `{label: idx.cluster_docs(cluster_id) for ...}` (visuals.py:84-87, 119-124): a dict comprehension over the listed clusters and
their first values. -/
def clusterQueries (db : DB) (listed : List (Int × List String)) : Except Err (Dict String Bitmap) :=
  listed.foldlM (fun d x => do
    let docs ← clusterDocs db x.1
    return Dict.set d (label x.2) docs) []

/-- `[100 * c / t for c, t in zip(counts, totals)]` (visuals.py:98, 137); real division, in exact numbers for floats. -/
def shares (counts totals : List Nat) : Except Err (List Rat) :=
  (counts.zip totals).mapM (fun x => pyDiv (100 * (x.1 : Int)) (x.2 : Int))

/-- `[100 * c / (t or 1) for c, t in zip(counts, reference)]` (visuals.py:219-222, 262-265, 315-319). -/
def sharesOr (counts reference : List Nat) : Except Err (List Rat) :=
  (counts.zip reference).mapM (fun x => pyDiv (100 * (x.1 : Int)) (if x.2 = 0 then 1 else (x.2 : Int)))

/-- `list(zip(dates, ys))[1:-1]` (visuals.py:98, 137): without the first and the last month. -/
def points (values : List Val) (ys : List Rat) : List (Val × Rat) := ((values.zip ys).drop 1).dropLast

/-- One line of a plot per entry of `intersections` (visuals.py:96-101, 135-138). -/
def lines (values : List Val) (totals : List Nat) (inters : Dict String (List Nat)) : Except Err (List (String × List (Val × Rat))) :=
  inters.mapM (fun e => do
    let ys ← shares e.2 totals
    return (e.1, points values ys))

/-- The plot of the given clusters over the values of a field (visuals.py:81-103, 117-142). -/
def clusterTrends (db : DB) (listed : List (Int × List String)) (field : String) : Except Err (List (String × List (Val × Rat))) := do
  let queries ← clusterQueries db listed
  let r := intersectQueries db queries field
  lines r.1 r.2.1 r.2.2

end Hyperreal.Trends
