import Mathlib.Order.Basic
import Mathlib.Data.List.Basic

/-! # Specification of "the k greatest, in descending order" -/

namespace Hyperreal.Spec

/-- `L` lists the `k` greatest of the things satisfying `S` (all of them when there are at most `k`), in strictly descending
order. -/
structure IsTop {α : Type} [LinearOrder α] (k : Nat) (S : α → Prop) (L : List α) : Prop where
  descending : L.Pairwise (· > ·)
  members : ∀ x ∈ L, S x
  size : L.length ≤ k
  best : ∀ x, S x → x ∉ L → L.length = k ∧ ∀ y ∈ L, x < y

end Hyperreal.Spec
