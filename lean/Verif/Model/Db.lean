import Verif.Model.Bitmap
import Mathlib.Data.Finset.Union
import Mathlib.Algebra.BigOperators.Group.List.Basic

/-!
# The index database: tables of `/repo/hyperreal/_index_schema.py`

Tables are lists of rows.  Uniqueness constraints are not built into the type: they are checked by the statements that
insert, as SQLite does, and appear in the invariants proved about reachable states.
-/

namespace Hyperreal

/-- Values stored in SQLite columns without a declared type (`value`, `doc_key`): integers and text.  Reals, blobs and
NULL are not modelled (NULL is rejected by the `not null` constraint of `inverted_index.value`). -/
inductive Val where
  | int (i : Int)
  | text (s : String)
  deriving DecidableEq, Repr

/-- SQLite's ordering of values: integers before text, text by code point (`BINARY` collation on UTF-8). -/
def Val.le : Val → Val → Bool
  | .int a, .int b => a ≤ b
  | .int _, .text _ => true
  | .text _, .int _ => false
  | .text a, .text b => a ≤ b

/-- A row of `inverted_index` (_index_schema.py:36-43). -/
structure FeatRow where
  fid : Nat
  field : String
  value : Val
  docsCount : Nat
  docs : Bitmap
  deriving DecidableEq

/-- A row of `feature_cluster` (_index_schema.py:98-104). -/
structure FCRow where
  fid : Nat
  cid : Int
  docsCount : Nat
  pinned : Bool
  deriving DecidableEq

/-- A row of `cluster` (_index_schema.py:85-95). -/
structure ClusterRow where
  cid : Int
  featureCount : Nat := 0
  docsCount : Nat := 0
  weight : Nat := 0
  docs : Option Bitmap := none
  pinned : Bool := false
  deriving DecidableEq

/-- A row of `position_doc_map` (_index_schema.py:46-54). -/
structure PosDocRow where
  field : String
  firstDoc : Nat
  lastDoc : Nat
  docsCount : Nat
  docs : Bitmap
  bounds : Bitmap
  deriving DecidableEq

/-- A row of `position_index` (_index_schema.py:57-63). -/
structure PosRow where
  fid : Nat
  firstDoc : Nat
  count : Nat
  positions : Bitmap
  deriving DecidableEq

/-- A row of `field_summary` (_index_schema.py:66-72). -/
structure FieldRow where
  field : String
  distinct : Nat
  minValue : Val
  maxValue : Val
  positionCount : Nat
  deriving DecidableEq

/-- The content of an index database (_index_schema.py:20-119, without `settings`). -/
structure DB where
  docKeys : List (Nat × Val) := []
  features : List FeatRow := []
  fc : List FCRow := []
  clusters : List ClusterRow := []
  changed : List Int := []
  posDocMap : List PosDocRow := []
  posIndex : List PosRow := []
  fieldSummary : List FieldRow := []
  deriving DecidableEq

namespace DB

/-- `select ... from inverted_index where feature_id = ?`. -/
def feature? (db : DB) (f : Nat) : Option FeatRow := db.features.find? (fun r => r.fid = f)

/-- `Index.__getitem__` with an integer key, index.py:248-257: the documents of a feature, empty when unknown. -/
def docsOf (db : DB) (f : Nat) : Bitmap :=
  match db.feature? f with
  | some r => r.docs
  | none => ∅

/-- `Index.__getitem__` with a `(field, value)` key, index.py:259-268. -/
def docsOfKey (db : DB) (field : String) (value : Val) : Bitmap :=
  match db.features.find? (fun r => r.field = field ∧ r.value = value) with
  | some r => r.docs
  | none => ∅

/-- The features of a cluster: `select feature_id from feature_cluster where cluster_id = ?`. -/
def members (db : DB) (c : Int) : List FCRow := db.fc.filter (fun r => r.cid = c)

end DB
end Hyperreal
