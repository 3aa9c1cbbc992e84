import Verif.Spec.Pipeline
import Verif.Model.Pivot

/-!
# Specification vocabulary for the exported graph
-/

namespace Hyperreal.Spec

variable {α : Type}

/-- The document has a value of the cluster; `shows` tells which values a document has in which field. -/
def InCluster (shows : α → String → Val → Prop) (db : DB) (x : α) (c : Int) : Prop :=
  ∃ field v, ValueIn db field v c ∧ shows x field v

/-- `L` lists, with their numbers of documents, the `k` most frequent values of the cluster (all of them when there are at most
`k`, or when `k` is negative), the most frequent first. -/
structure IsTopValues (shows : α → String → Val → Prop) (docs : List α) (db : DB) (c : Int) (k : Int)
    (L : List (String × Val × Nat)) : Prop where
  size : ∀ V : List (String × Val), V.Nodup → (∀ x, x ∈ V ↔ ValueIn db x.1 x.2 c) →
    L.length = if k < 0 then V.length else min k.toNat V.length
  once : (L.map (fun x => (x.1, x.2.1))).Nodup
  inCluster : ∀ x ∈ L, ValueIn db x.1 x.2.1 c
  counts : ∀ x ∈ L, x.2.2 = howMany (fun d => shows d x.1 x.2.1) docs
  descending : L.Pairwise (fun a b => b.2.2 ≤ a.2.2)
  best : ∀ field v, ValueIn db field v c → (field, v) ∉ L.map (fun x => (x.1, x.2.1)) →
    ∀ x ∈ L, howMany (fun d => shows d field v) docs ≤ x.2.2

/-- How a value is written in the label of a node. -/
def valueLabel (includeField : Bool) (field : String) (v : Val) : String :=
  let text := match v with
    | .int i => toString i
    | .text s => s
  if includeField then field ++ ":" ++ text else text

/-- The graph of a model of the documents: a node for every cluster, with the number of documents that have a value of it and a
label naming its most frequent values; an undirected edge, one only, between two different clusters exactly when a document has
values of both, whose weight is the share of the documents of either that are documents of both, rounded by `rd`. -/
structure IsModelGraph {σ : Type} (shows : α → String → Val → Prop) (docs : List α) (db : DB) (rd : Rat → σ) (topK : Int)
    (includeField : Bool) (g : Graph σ) : Prop where
  nodeOnce : (g.nodes.map (·.1)).Nodup
  nodes : ∀ c, c ∈ g.nodes.map (·.1) ↔ ∃ field v, ValueIn db field v c
  counts : ∀ c n label, (c, n, label) ∈ g.nodes → n = howMany (fun x => InCluster shows db x c) docs
  labels : ∀ c n label, (c, n, label) ∈ g.nodes → ∃ L, IsTopValues shows docs db c topK L ∧
    label = ", ".intercalate (L.map (fun x => valueLabel includeField x.1 x.2.1))
  edgeOnce : g.edges.Pairwise (fun e f => e.1 ≠ f.1 ∧ e.1 ≠ f.1.swap)
  edges : ∀ a b w, (((a, b), w) ∈ g.edges ∨ ((b, a), w) ∈ g.edges) ↔
    a ≠ b ∧ (∃ x ∈ docs, InCluster shows db x a ∧ InCluster shows db x b) ∧
    w = rd ((howMany (fun x => InCluster shows db x a ∧ InCluster shows db x b) docs : Rat) /
      (howMany (fun x => InCluster shows db x a ∨ InCluster shows db x b) docs : Rat))

end Hyperreal.Spec
