import Verif.Spec.Positions

/-! # Specification vocabulary for concordances of texts -/

namespace Hyperreal.Spec

/-- For each place where the word stands among the tokens, in order: the tokens at most `w` away from it, in order, joined by `sep`. -/
def contexts (w : Nat) (sep : String) (tokens : List String) (word : String) : List String :=
  ((List.range tokens.length).filter (fun i => tokens[i]? = some word)).map (fun i =>
    sep.intercalate (((List.range tokens.length).filter (fun j => i ≤ j + w ∧ j ≤ i + w)).filterMap (fun j => tokens[j]?)))

/-- What a concordance shows for a value of a field (`none`: it does not mention the value). -/
def shownFor (out : Dict String (Dict Val (List String))) (field : String) (v : Val) : Option (List String) :=
  Dict.get? ((Dict.get? out field).getD []) v

/-- The two words stand at most `w` apart among the tokens. -/
def Near (w : Nat) (tokens : List String) (a b : String) : Prop := ∃ o o', tokens[o]? = some a ∧ tokens[o']? = some b ∧ Close w o o'

end Hyperreal.Spec
