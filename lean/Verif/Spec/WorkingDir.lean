import Verif.Model.WorkingDir
import Verif.Spec.Indexing

/-! # Vocabulary for the working directory of `index` (C83) -/

namespace Hyperreal.Spec
open Atomic

/-- Two connections on which everything is the same: what is committed, what is not, and the open transactions. -/
def SameState (c c' : Conn DB) : Prop :=
  c.committed = c'.committed ∧ c.work = c'.work ∧ c.stack = c'.stack ∧ c.begun = c'.begun ∧ c.level = c'.level ∧ c.changed = c'.changed

/-- Nothing happened to the other directories. -/
def OthersKept (name : String) (dirs dirs' : Dirs) : Prop := ∀ m, m ≠ name → dirs'.lookup m = dirs.lookup m

end Hyperreal.Spec
