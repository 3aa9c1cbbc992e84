import Verif.Model.Session
import Verif.Spec.Concurrent
import Verif.Spec.Pivot
import Verif.Spec.Query
import Verif.Spec.Server

/-!
# Specification: code that reads several times while others edit

The questions of a session are transactions of the concurrent world, one for each, that read the content and return it.
-/

namespace Hyperreal.Spec
open Atomic Concurrent

/-- The method that reads the content. -/
def readContent : Method := .stmt (fun s => .ok (s, .db s)) .ret

/-- What a finished transaction answered: the content it read, or the exception it raised. -/
def _root_.Hyperreal.Concurrent.Entry.answer (E : Entry DB Ret Job) : Except Err DB :=
  match E.code with
  | .done (.ok (.db d)) => .ok d
  | .done (.error e) => .error e
  | _ => .error .operational

/-- The finished transactions `es` of the history are questions. -/
structure Questions (w : World DB Ret Job) (es : List (Entry DB Ret Job)) : Prop where
  happened : ∀ E ∈ es, E ∈ w.log
  reads : ∀ E ∈ es, ∃ name, E.label = .query name readContent

/-- The session `S` ended with `r` when its questions were answered by the transactions `es`, in this order. -/
def Answered {α : Type} (w : World DB Ret Job) (S : Session α) (es : List (Entry DB Ret Job)) (r : Except Err α) : Prop :=
  Questions w es ∧ S.on (es.map (·.answer)) = some r

/-- `r` is an outcome of the session with contents of the kind `P`, a new one for every question. -/
def Mixes {α : Type} (P : DB → Prop) : Session α → Except Err α → Prop
  | .done r, r' => r' = r
  | .ask k, r' => ∃ d, P d ∧ Mixes P (k d) r'

/-- The content after an edit that nobody disturbs, if there is one. -/
def afterEdit (d : DB) : Option ModelOp → DB
  | none => d
  | some op => (op.exec none (Conn.fresh d)).1.committed

/-- The contents questions find when before each of them somebody may have edited. -/
def found (d : DB) : List (Option ModelOp) → List DB
  | [] => []
  | e :: es => afterEdit d e :: found (afterEdit d e) es

variable {σ : Type} [LinearOrder σ]

/-- The entry of a cluster in a pivot is right for the content `d`: the similarity of its documents to the query, and at
most `topK` of its features, all different, all sharing a document with the query, in descending order of their
similarities to the query. -/
structure RightFor (rd : Rat → σ) (d : DB) (query : Bitmap) (topK : Nat) (x : Int × σ × List (Nat × String × Val × σ)) :
    Prop where
  cluster : hasCluster d x.1
  docs : ∃ D : Bitmap, (∀ k, k ∈ D ↔ CoveredBy d x.1 k) ∧ x.2.1 = similarity rd query D
  size : x.2.2.length ≤ topK
  distinct : (x.2.2.map (·.1)).Nodup
  feature : ∀ e ∈ x.2.2, assign d e.1 = some x.1 ∧ ∃ r ∈ d.features, r.fid = e.1 ∧ r.field = e.2.1 ∧ r.value = e.2.2.1
  shares : ∀ e ∈ x.2.2, (query ∩ d.docsOf e.1).Nonempty
  similar : ∀ e ∈ x.2.2, e.2.2.2 = similarity rd query (d.docsOf e.1)
  ordered : x.2.2.Pairwise (fun a b => b.2.2.2 ≤ a.2.2.2)

end Hyperreal.Spec
