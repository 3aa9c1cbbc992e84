import Verif.Spec.Pipeline
import Verif.Spec.Fields
import Verif.Spec.SxRender
import Verif.Spec.Written

/-!
# Specification vocabulary for a run of the command line on a data dump
-/

namespace Hyperreal.Spec

/-- The number of questions and answers of the dump that show the value `w` in the field. -/
noncomputable def postsWith (t : SX.TextOps) (d : SX.Dump) (url : String) (field w : String) : Nat :=
  howMany (fun r => SxShows t (docFrom d url 1 r) field w) (considered d)

/-- The `n`-th question or answer of the dump (from 0) shows a value that the model has in cluster `c`. -/
def PostIn (t : SX.TextOps) (d : SX.Dump) (url : String) (model : DB) (c : Int) (n : Nat) : Prop :=
  ∃ r field w, (considered d)[n]? = some r ∧ SxShows t (docFrom d url 1 r) field w ∧ ValueIn model field (.text w) c

/-- The tweets that were collected directly. -/
def collected (tw : TW.Db) : List TW.Tweet := tw.tweets.filter (fun x => x.id ∈ tw.direct)

/-- The number of directly collected tweets that show the value in the field. -/
noncomputable def tweetsWith (t : TW.TextOps) (tw : TW.Db) (field : String) (v : Val) : Nat :=
  howMany (fun x => TwShows t tw x field v) (collected tw)

end Hyperreal.Spec
