import Verif.Spec.Cli
import Verif.Spec.Migrate
import Verif.Spec.Store
import Verif.Spec.Indexing

/-!
# Specification vocabulary for a whole run of the command line
-/

namespace Hyperreal.Spec
open Migrate

/-- The documents of a text file: the lines (see `Line`) that are not only white space. -/
def documents (space : Char → Bool) (ls : List Line) : List String :=
  ((ls.map Line.doc).filter (fun t => !t.all space)).map String.ofList

/-- In how many of the documents the token occurs. -/
def documentsWith (tokens : String → List String) (docs : List String) (t : String) : Nat :=
  docs.countP (fun x => decide (t ∈ tokens x))

/-- The token is in the model, in cluster `c`. -/
def TokenIn (db : DB) (t : String) (c : Int) : Prop :=
  ∃ r ∈ db.features, r.field = "text" ∧ r.value = .text t ∧ assign db r.fid = some c

/-- The value of the field is in the model, in cluster `c`. -/
def ValueIn (db : DB) (field : String) (v : Val) (c : Int) : Prop :=
  ∃ r ∈ db.features, r.field = field ∧ r.value = v ∧ assign db r.fid = some c

/-- The document with key `k` has the value `v` in the field. -/
def HasValue (content : Val → Features) (k : Val) (field : String) (v : Val) : Prop :=
  ∃ vs, (field, vs) ∈ content k ∧ some v ∈ vs.items

open Classical in
/-- The number of documents that satisfy `P`, of those listed. -/
noncomputable def howMany {α : Type} (P : α → Prop) (l : List α) : Nat := l.countP (fun k => decide (P k))

/-- An index file that is new, or of the current version and at rest, whatever it indexes. -/
def Usable (f : File) : Prop :=
  (f.version = 0 ∧ f.objects = [] ∧ f.data = {}) ∨ (Current f ∧ Settled f.data)

end Hyperreal.Spec
