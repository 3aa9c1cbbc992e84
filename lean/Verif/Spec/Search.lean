import Verif.Spec.Serve
import Verif.Spec.ExportGraph
import Verif.Model.Links

/-! # Specification vocabulary for the overview and the results of a search -/

namespace Hyperreal.Spec

variable {α σ : Type} [LinearOrder σ]

/-- Of the documents that satisfy `P` or `Q`, the share that satisfy both. -/
noncomputable def share (docs : List α) (P Q : α → Prop) : Rat :=
  (howMany (fun d => P d ∧ Q d) docs : Rat) / (howMany (fun d => P d ∨ Q d) docs : Rat)

/-- The overview of a model of documents: every cluster once, with the number of documents that have a value of it, the largest
first, each with its `k` most frequent values; no documents are shown. -/
structure IsOverviewPage (shows : α → String → Val → Prop) (docs : List α) (db : DB) (k : Int) (p : IndexPage σ) : Prop where
  total : p.total = 0
  nothing : p.results = .nothing
  clusters : ∃ L, p.clusters = .plain L ∧ (L.map (·.1)).Nodup ∧ (∀ c, c ∈ L.map (·.1) ↔ ∃ field v, ValueIn db field v c) ∧
    L.Pairwise (fun a b => b.2.1 ≤ a.2.1) ∧
    ∀ x ∈ L, x.2.1 = howMany (fun d => InCluster shows db d x.1) docs ∧
      IsTopValues shows docs db x.1 k (x.2.2.map (fun y => (y.field, y.value, y.docsCount)))

/-- `L` lists, of the values of cluster `c` that a document has together with the value `v` of the field, the `k` that are closest to
it (all of them when there are at most `k`), the closest first: the share of the documents with either that have both, rounded by
`rd`. -/
structure IsNearValues (shows : α → String → Val → Prop) (docs : List α) (rd : Rat → σ) (db : DB) (field : String) (v : Val) (c : Int)
    (k : Nat) (L : List (String × Val × σ)) : Prop where
  size : L.length ≤ k
  once : (L.map (fun x => (x.1, x.2.1))).Nodup
  inCluster : ∀ x ∈ L, ValueIn db x.1 x.2.1 c ∧ ∃ d ∈ docs, shows d field v ∧ shows d x.1 x.2.1
  shares : ∀ x ∈ L, x.2.2 = rd (share docs (shows · field v) (shows · x.1 x.2.1))
  descending : L.Pairwise (fun a b => b.2.2 ≤ a.2.2)
  best : ∀ fl y, ValueIn db fl y c → (∃ d ∈ docs, shows d field v ∧ shows d fl y) → (fl, y) ∉ L.map (fun x => (x.1, x.2.1)) →
    L.length = k ∧ ∀ x ∈ L, rd (share docs (shows · field v) (shows · fl y)) ≤ x.2.2

/-- The result of a search for the value `v` of the field: the number of documents that have it; `n` of these, or all if there are
fewer, each once, with its key and what is shown of it; and the clusters with a value that such a document has, each once, the
closest first, each with the `k` closest of these values. -/
structure IsSearchPage (shows : α → String → Val → Prop) (docs : List α) (key : α → Val) (render : α → String) (rd : Rat → σ)
    (db : DB) (field : String) (v : Val) (n k : Nat) (p : IndexPage σ) : Prop where
  kind : p.type = "document"
  total : p.total = howMany (fun d => shows d field v) docs
  documents : ∃ rs, p.results = .documents rs ∧ rs.length = min n p.total ∧ (rs.map (·.2.1)).Nodup ∧
    ∀ r ∈ rs, ∃ d ∈ docs, shows d field v ∧ r.2.1 = key d ∧ r.2.2 = render d
  clusters : ∃ L, p.clusters = .ranked L ∧ (L.map (·.1)).Nodup ∧
    (∀ c, c ∈ L.map (·.1) ↔ ∃ d ∈ docs, shows d field v ∧ InCluster shows db d c) ∧
    (L.map (·.2.1)).Pairwise (· ≥ ·) ∧
    ∀ x ∈ L, x.2.1 = rd (share docs (shows · field v) (InCluster shows db · x.1)) ∧
      IsNearValues shows docs rd db field v x.1 k (x.2.2.map (·.2))

/-- The page of cluster `c` for the value `v` of a field: it counts the documents that have this value and one of the cluster, and
shows `n` of these, or all if there are fewer, each once, with its key and what is shown of it.  It lists, each once, the values of
the cluster that a document has together with `v`, or all values of the cluster if there is no such document. -/
structure IsFilteredPage (shows : α → String → Val → Prop) (docs : List α) (key : α → Val) (render : α → String)
    (db : DB) (field : String) (v : Val) (c : Int) (n : Nat) (p : ClusterPage σ) : Prop where
  cluster : p.cluster = c
  values : (listedValues p.features).Nodup ∧ ∀ fl x, (fl, x) ∈ listedValues p.features ↔
    ValueIn db fl x c ∧ (p.total = 0 ∨ ∃ d ∈ docs, shows d field v ∧ shows d fl x)
  kind : p.type = "document"
  total : p.total = howMany (fun d => shows d field v ∧ InCluster shows db d c) docs
  documents : ∃ rs, p.results = .documents rs ∧ rs.length = min n p.total ∧ (rs.map (·.2.1)).Nodup ∧
    ∀ r ∈ rs, ∃ d ∈ docs, (shows d field v ∧ InCluster shows db d c) ∧ r.2.1 = key d ∧ r.2.2 = render d

/-- What a visitor sees who asks for the overview, or sends the search form of the overview or of the page of a cluster, with a field and
a text: `ask r n` is the answer to the request `r`, with up to `n` redirects followed, and the index file after that.  On the page
of the cluster 0 the form is that of the overview. -/
structure AnswersSearches (ask : Web.Request → Nat → Migrate.File × Web.Answer σ) (shows : α → String → Val → Prop) (docs : List α)
    (key : α → Val) (render : α → String) (rd : Rat → σ) (db : DB) : Prop where
  overview : ∃ p, (ask (.get "/index/0") 2).2 = .index p ∧ IsOverviewPage shows docs db 40 p
  unchanged : ∀ c field text n, (ask (Web.searchForm "0" c field text) n).1.data = db
  found : ∀ field text, (∃ d ∈ docs, shows d field (.text text)) →
    ∃ p, (ask (Web.searchForm "0" none field text) 3).2 = .index p ∧ IsSearchPage shows docs key render rd db field (.text text) 5 40 p
  missing : ∀ field text, (¬ ∃ d ∈ docs, shows d field (.text text)) →
    (ask (Web.searchForm "0" none field text) 3).2 = .failed .keyError ∨
    ∃ p, (ask (Web.searchForm "0" none field text) 3).2 = .index p ∧ IsOverviewPage shows docs db 40 p
  within : ∀ c field text, c ≠ 0 → (∃ fl x, ValueIn db fl x c) →
    ((∃ d ∈ docs, shows d field (.text text)) → (ask (Web.searchForm "0" (some c) field text) 3).2 ≠ .failed .keyError) ∧
    ((ask (Web.searchForm "0" (some c) field text) 3).2 = .failed .keyError ∨
      ∃ p, (ask (Web.searchForm "0" (some c) field text) 3).2 = .cluster p ∧
        IsFilteredPage shows docs key render db field (.text text) c 30 p)
  zero : ∀ field text, (ask (Web.searchForm "0" (some 0) field text) 3).2 = (ask (Web.searchForm "0" none field text) 3).2

end Hyperreal.Spec
