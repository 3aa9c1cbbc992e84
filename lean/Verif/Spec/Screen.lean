import Verif.Spec.Serve
import Verif.Spec.PageTags
import Verif.Spec.TwPage

/-! # What is on the screen -/

namespace Hyperreal.Spec.Page

/-- A marked-up text as an item of a list: its tags between those of the item. -/
def inItem (ns : List Node) : List Node := ⟨"li", [], (ns.headD ⟨"", [], ""⟩).text⟩ :: ns.tail ++ [⟨"/li", [], ""⟩]

/-- The box with documents: how many there are, and the list of those shown. -/
def documentBox (total : Nat) (items : List (List Node)) : List Node :=
  [⟨"li", [], ""⟩,
   ⟨"div", [("class", "cluster-header")],
     if items.length < total then "Sample of " ++ toString total ++ " documents" else "All " ++ toString total ++ " matching documents."⟩,
   ⟨"/div", [], ""⟩, ⟨"ul", [("class", "doc-list")], ""⟩] ++ items.flatten ++ [⟨"/ul", [], ""⟩, ⟨"/li", [], ""⟩]

/-- What is read is the page `rest` with one box of documents: `n` of those that belong to it, or all if there are fewer, each
once and each as `item` says. -/
def Displays {α : Type} (belongs : α → Prop) (docs : List α) (item : α → List Node → Prop) (n : Nat) (rest read : List Node) : Prop :=
  ∃ chosen items before after, chosen.Nodup ∧ (∀ d ∈ chosen, d ∈ docs ∧ belongs d) ∧ chosen.length = min n (howMany belongs docs) ∧
    List.Forall₂ item chosen items ∧ before ++ after = rest ∧ read = before ++ documentBox (howMany belongs docs) items ++ after

/-- As `Displays`; if no document belongs to the page there is no box. -/
def DisplaysIfAny {α : Type} (belongs : α → Prop) (docs : List α) (item : α → List Node → Prop) (n : Nat) (rest read : List Node) : Prop :=
  ((∃ d ∈ docs, belongs d) → Displays belongs docs item n rest read) ∧ ((∀ d ∈ docs, ¬ belongs d) → read = rest)

end Hyperreal.Spec.Page
