import Verif.Model.Positions
import Verif.Spec.Indexing

/-!
# Specification vocabulary for positions

Stated over the corpus: which token a document has at which offset.  Nothing here refers to positions, partitions or
windows as stored.
-/

namespace Hyperreal.Spec

/-- The `d`-th document of the corpus has the sequence `vs` in the field. -/
def HasTokens (corpus : Corpus) (content : Val → Features) (field : String) (d : Nat) (vs : List (Option Val)) : Prop :=
  ∃ k, corpus.keys[d]? = some k ∧ (field, Values.seq vs) ∈ content k

/-- The `d`-th document has the value at offset `o` of the field. -/
def TokenAt (corpus : Corpus) (content : Val → Features) (field : String) (d o : Nat) (value : Val) : Prop :=
  ∃ vs, HasTokens corpus content field d vs ∧ vs[o]? = some (some value)

/-- A consistent database that completely indexes the corpus, with positions. -/
structure Searchable (corpus : Corpus) (content : Val → Features) (db : DB) : Prop where
  serves : Serves corpus content
  consistent : Wellformed db
  features : IsIndexOf corpus content db
  positions : IsPositionIndexOf corpus content db

/-- The reference stands for this feature: by its id, or by its field and value. -/
def Refers (ref : FeatureRef) (r : FeatRow) : Prop :=
  match ref with
  | .id f => f = r.fid
  | .key field value => field = r.field ∧ value = r.value
  | .range _ _ => False

/-- The reference names the value in the field. -/
def Names (db : DB) (ref : FeatureRef) (field : String) (value : Val) : Prop :=
  ∃ r ∈ db.features, Refers ref r ∧ r.field = field ∧ r.value = value

/-- The clause (a disjunction of features) has a feature of the field. -/
def Concerns (db : DB) (field : String) (clause : List FeatureRef) : Prop := ∃ ref ∈ clause, ∃ v, Names db ref field v

/-- The clause matches at offset `o` of the field in document `d`. -/
def MatchAt (corpus : Corpus) (content : Val → Features) (db : DB) (field : String) (clause : List FeatureRef)
    (d o : Nat) : Prop :=
  ∃ ref ∈ clause, ∃ v, Names db ref field v ∧ TokenAt corpus content field d o v

/-- At most `w` apart. -/
def Close (w o o' : Nat) : Prop := o ≤ o' + w ∧ o' ≤ o + w

/-- Document `d` comes directly after `d'` in one of the parts in which the positions of the field are stored. -/
def Follows (db : DB) (field : String) (d' d : Nat) : Prop :=
  ∃ m ∈ db.posDocMap, m.field = field ∧ ∃ i : Nat, m.docs.elems[i]? = some d' ∧ m.docs.elems[i + 1]? = some d

/-- The known defect of the windows: offset 0 of a document is taken to be near the end of the document before it. -/
def LeakAt (corpus : Corpus) (content : Val → Features) (db : DB) (field : String) (w : Nat) (isMatch : Nat → Nat → Prop)
    (d o : Nat) : Prop :=
  o = 0 ∧ ∃ d' o' vs, Follows db field d' d ∧ HasTokens corpus content field d' vs ∧ isMatch d' o' ∧ o' < vs.length ∧ vs.length ≤ o' + w

/-- `M` are matched offsets of the field in document `d`: each is a match of a clause with a match of every clause
concerning the field at most `w` away (or leaking in from the document before); and matches of all those clauses that are
pairwise at most `w` apart are all in `M`. -/
structure Matched (corpus : Corpus) (content : Val → Features) (db : DB) (clauses : List (List FeatureRef)) (w : Nat)
    (field : String) (d : Nat) (M : Finset Nat) : Prop where
  isMatch : ∀ o ∈ M, ∃ c ∈ clauses, MatchAt corpus content db field c d o
  near : ∀ o ∈ M, ∀ c ∈ clauses, Concerns db field c →
    (∃ o', MatchAt corpus content db field c d o' ∧ Close w o o') ∨
      LeakAt corpus content db field w (MatchAt corpus content db field c) d o
  complete : ∀ T : Finset Nat, (∀ o ∈ T, ∃ c ∈ clauses, MatchAt corpus content db field c d o) →
    (∀ c ∈ clauses, Concerns db field c → ∃ o ∈ T, MatchAt corpus content db field c d o) →
    (∀ o ∈ T, ∀ o' ∈ T, Close w o o') → T ⊆ M

/-- The passages are the runs of `M`: from a member to a member, counting the members between; no two neighbours in a
passage more than `w` apart; different passages more than `w` apart, in order; neighbours at most `w` apart are in
one passage. -/
structure AreRuns (M : Finset Nat) (w : Nat) (ps : List Passage) : Prop where
  ends : ∀ p ∈ ps, p.start ≤ p.stop ∧ p.start ∈ M ∧ p.stop ∈ M
  counts : ∀ p ∈ ps, p.count = (M.filter (fun o => p.start ≤ o ∧ o ≤ p.stop)).card
  linked : ∀ p ∈ ps, ∀ o ∈ M, p.start ≤ o → o < p.stop → ∃ o' ∈ M, o < o' ∧ o' ≤ o + w
  apart : ps.Pairwise (fun a b => a.stop + w < b.start)
  together : ∀ o ∈ M, ∀ o' ∈ M, o < o' → o' ≤ o + w → ∃ p ∈ ps, p.start ≤ o ∧ o' ≤ p.stop
  /-- only the last member can be missing, and only when it is more than `w` from all others -/
  lone : ∀ o ∈ M, (∃ p ∈ ps, p.start ≤ o ∧ o ≤ p.stop) ∨ ∀ o' ∈ M, o' = o ∨ o' + w < o

/-- Every reference of a clause names a feature of the index (or is of a kind that is ignored). -/
def Known (db : DB) (c : List FeatureRef) : Prop :=
  ∀ ref ∈ c, (∃ a b, ref = .range a b) ∨ ∃ r ∈ db.features, Refers ref r

/-- The passages found in a field of a document. -/
def passagesIn (result : Dict Nat (List Passage)) (field : String) (d : Nat) : List Passage :=
  ((Dict.get? result d).getD []).filter (fun p => p.field = field)

/-- One of the features (given by their ids) occurs at offset `o` of the field in document `d`. -/
def QueryAt (corpus : Corpus) (content : Val → Features) (db : DB) (field : String) (features : List Nat) (d o : Nat) : Prop :=
  ∃ r ∈ db.features, r.fid ∈ features ∧ r.field = field ∧ TokenAt corpus content field d o r.value

/-! ## Concordances -/

/-- The offsets of a value, ascending. -/
def occurrences (vs : List (Option Val)) (v : Val) : List Nat :=
  (List.range vs.length).filter (fun i => vs[i]? = some (some v))

/-- The tokens at most `w` away from offset `i`, in order. -/
def neighbourhood (w : Nat) (vs : List (Option Val)) (i : Nat) : List (Option Val) :=
  ((List.range vs.length).filter (fun j => i ≤ j + w ∧ j ≤ i + w)).filterMap (fun j => vs[j]?)

/-- The value of the field is requested: by its key, or by the id of the feature. -/
def Requested (db : DB) (features : List FeatureRef) (field : String) (v : Val) : Prop :=
  .key field v ∈ features ∨ ∃ r ∈ db.features, .id r.fid ∈ features ∧ r.field = field ∧ r.value = v

/-- The requests are understood: keys, or ids of features of the index. -/
def Understood (db : DB) (features : List FeatureRef) : Prop :=
  ∀ ref ∈ features, match ref with
    | .id f => ∃ r ∈ db.features, r.fid = f
    | .key _ _ => True
    | .range _ _ => False

/-- The windows reported for a value of a field (`none`: the value is not reported at all). -/
def reported (out : Dict String (Dict Val (List (List (Option Val))))) (field : String) (v : Val) :
    Option (List (List (Option Val))) :=
  Dict.get? ((Dict.get? out field).getD []) v

/-- Keys that Python can sort: all integers or all strings. -/
def Sortable (ks : List Val) : Prop := (∀ k ∈ ks, k.isInt = true) ∨ ∀ k ∈ ks, k.isInt = false

/-! ## Rendered passages -/

/-- The tokens of a passage with the overhang, as the code selects them: one less on the right. -/
def shown (overhang : Nat) (ts : List String) (p : Passage) : List String :=
  ((List.range ts.length).filter (fun j => p.start ≤ j + overhang ∧ j < p.stop + overhang)).filterMap (fun j => ts[j]?)

/-- The `d`-th document has these strings as its tokens in the field. -/
def HasText (corpus : Corpus) (content : Val → Features) (field : String) (d : Nat) (ts : List String) : Prop :=
  HasTokens corpus content field d (ts.map (fun t => some (.text t)))

/-- The passages can be rendered: documents of the corpus, each listed once, with passages in text fields. -/
structure Renderable (corpus : Corpus) (content : Val → Features) (scored : Dict Nat (List Passage)) : Prop where
  once : scored.keys.Nodup
  known : ∀ e ∈ scored, e.1 < corpus.keys.length
  text : ∀ e ∈ scored, ∀ p ∈ e.2, ∃ ts, HasText corpus content p.field e.1 ts
  sortable : Sortable (scored.keys.filterMap (fun d => corpus.keys[d]?))

/-- The row renders the passages of its document: for every field with passages the text of each, in order; the other
fields are shown if they are sets and left out if they are sequences. -/
structure Renders (corpus : Corpus) (content : Val → Features) (overhang : Nat) (scored : Dict Nat (List Passage))
    (row : Nat × Val × Dict String RowCell) : Prop where
  key : corpus.keys[row.1]? = some row.2.1
  passages : ∀ field ts, HasText corpus content field row.1 ts → passagesIn scored field row.1 ≠ [] →
    Dict.get? row.2.2 field =
      some (.passages ((passagesIn scored field row.1).map (fun p => " ".intercalate (shown overhang ts p))))
  sets : ∀ field vs, (field, Values.bag vs) ∈ content row.2.1 → Dict.get? row.2.2 field = some (.values vs)
  others : ∀ field, (∀ vs, (field, Values.bag vs) ∉ content row.2.1) → passagesIn scored field row.1 = [] →
    Dict.get? row.2.2 field = none

end Hyperreal.Spec
