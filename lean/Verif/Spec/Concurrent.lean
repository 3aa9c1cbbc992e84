import Verif.Model.Concurrent
import Verif.Spec.Store
import Verif.Spec.Indexing
import Verif.Lemmas.Assign

/-!
# Specification: running alone

What a call does when nobody else uses the file: no threads, no lock, no snapshots.
-/

namespace Hyperreal.Spec
open Atomic Concurrent
variable {σ V : Type}

/-- Run code alone on a connection to the end. -/
def alone : Code σ V → Conn σ → Conn σ × Except Err V
  | .done r, c => (c, r)
  | .exec f k, c => alone (k (c.exec f).2) (c.exec f).1
  | .cmd a k, c => alone (k (a.exec c).2) (a.exec c).1

/-- Run code alone on a connection until it ends its transaction (or its code): the remaining code and the
connection. -/
def aloneTxn : Code σ V → Conn σ → Code σ V × Conn σ
  | .done r, c => (.done r, c)
  | .exec f k, c =>
    if (c.exec f).1.inTxn then aloneTxn (k (c.exec f).2) (c.exec f).1 else (k (c.exec f).2, (c.exec f).1)
  | .cmd a k, c =>
    if (a.exec c).1.inTxn then aloneTxn (k (a.exec c).2) (a.exec c).1 else (k (a.exec c).2, (a.exec c).1)

/-- Code that writes nothing. -/
inductive ReadOnly : Prog σ V → Prop where
  | ret (r : Except Err V) : ReadOnly (.ret r)
  | stmt (f : σ → Except Err (σ × V)) (k : Except Err V → Prog σ V) (hf : ∀ s s' v, f s = .ok (s', v) → s' = s)
      (hk : ∀ r, ReadOnly (k r)) : ReadOnly (.stmt f k)
  | call (name : String) (b : Prog σ V) (k : Except Err V → Prog σ V) (hb : ReadOnly b) (hk : ∀ r, ReadOnly (k r)) :
      ReadOnly (.call name false b k)

/-- Code that lets the exceptions of its statements and calls through. -/
inductive NoCatch : Prog σ V → Prop where
  | ret (r : Except Err V) : NoCatch (.ret r)
  | stmt (f : σ → Except Err (σ × V)) (k : Except Err V → Prog σ V) (he : ∀ e, k (.error e) = .ret (.error e))
      (hk : ∀ v, NoCatch (k (.ok v))) : NoCatch (.stmt f k)
  | call (name : String) (w : Bool) (b : Prog σ V) (k : Except Err V → Prog σ V) (hb : NoCatch b)
      (he : ∀ e, k (.error e) = .ret (.error e)) (hk : ∀ v, NoCatch (k (.ok v))) : NoCatch (.call name w b k)

/-- The content after a finished transaction: the next version if it published one, otherwise the version it started
from. -/
def _root_.Hyperreal.Concurrent.Entry.result {ι : Type} (E : Entry σ V ι) (w : World σ V ι) : σ :=
  if E.published then w.version (E.base + 1) else w.version E.base

/-- What a thread may be doing: a public call that edits the model, a decorated method that only reads, or `index`. -/
inductive Job where
  | edit (op : ModelOp)
  | query (name : String) (body : Method)
  | reindex (corpus : Corpus) (content : Val → Features) (cfg : IndexCfg)

/-- The code a thread runs for its job.  Any statement may be refused (`Faulted`), the housekeeping may be refused or
fail, and `index` may be struck anywhere. -/
def Job.Runs : Job → Code DB Ret → Prop
  | .edit op, p => op.Valid ∧ ∃ body hk, Faulted op.method.2.2 body ∧
      (hk = none ∨ ∃ fault, hk = some (DB.updateChanged fault)) ∧ p = callCode hk op.method.1 op.method.2.1 body
  | .query name body, p => ReadOnly body ∧ NoCatch body ∧ ∃ body' hk, Faulted body body' ∧ p = callCode hk name false body'
  | .reindex corpus content cfg, p => Serves corpus content ∧ ∃ s, Fair s ∧ p = indexCode corpus cfg s

end Hyperreal.Spec
