import Verif.Model.Indexing
import Verif.Spec.Store
import Verif.Spec.Atomic

/-!
# Specification vocabulary for indexing

What a corpus promises, what it means for a database to be an index of a corpus, and what reindexing must preserve.
-/

namespace Hyperreal.Spec

/-- The contract of a corpus (corpus.py:24-92): keys are distinct, `docs(ks)` yields the documents of the keys in the
order of `ks`, and `index` returns a mapping (each field once).  `content k` is the mapping for the document `k`. -/
structure Serves (corpus : Corpus) (content : Val → Features) : Prop where
  keys : corpus.keys.Nodup
  docs : ∀ ks, (∀ k ∈ ks, k ∈ corpus.keys) → corpus.docs ks = .ok (ks.map content)
  fields : ∀ k ∈ corpus.keys, ((content k).map (·.1)).Nodup

/-- With positions, sequences must not contain `None`. -/
def Indexable (corpus : Corpus) (content : Val → Features) (positions : Bool) : Prop :=
  positions = true → ∀ k ∈ corpus.keys, ∀ f vs, (f, Values.seq vs) ∈ content k → none ∉ vs

/-- The schedule really is one: waiting splits the futures, rows and groups come in some order. -/
structure Fair (s : Schedule) : Prop where
  pick : ∀ fs, ((s.pick fs).1 ++ (s.pick fs).2).Perm fs
  segs : ∀ l, (s.segOrder l).Perm l
  pos : ∀ l, (s.posOrder l).Perm l
  groups : ∀ l, (s.groupOrder l).Perm l

/-- The `d`-th document of the corpus contains the value in the field. -/
def Occurs (corpus : Corpus) (content : Val → Features) (field : String) (value : Val) (d : Nat) : Prop :=
  ∃ k vs, corpus.keys[d]? = some k ∧ (field, vs) ∈ content k ∧ some value ∈ vs.items

/-- The database is a complete index of the corpus (features and document keys). -/
structure IsIndexOf (corpus : Corpus) (content : Val → Features) (db : DB) : Prop where
  docKeys : ∀ d k, (d, k) ∈ db.docKeys ↔ corpus.keys[d]? = some k
  docIds : (db.docKeys.map (·.1)).Nodup
  lookup : ∀ field value d, d ∈ db.docsOfKey field value ↔ Occurs corpus content field value d
  featureLookup : ∀ r ∈ db.features, ∀ d, d ∈ db.docsOf r.fid ↔ Occurs corpus content r.field r.value d

/-- The positions are a complete positional index of the corpus: the partitions of a field tile the documents with a
non-empty sequence; `docs[i]` occupies the positions from `bounds[i]` up to `bounds[i+1]`; and a position is
stored for a feature exactly when the document at that position has the value at that offset.  A partition has one
header, and one row per feature; the fields with positions are those marked in the field summary. -/
structure IsPositionIndexOf (corpus : Corpus) (content : Val → Features) (db : DB) : Prop where
  tiles : ∀ m ∈ db.posDocMap, m.bounds.elems.length = m.docs.elems.length + 1 ∧ m.bounds.elems[0]? = some 0 ∧
    m.docsCount = m.docs.card ∧
    ∀ (i d lo hi : Nat), m.docs.elems[i]? = some d → m.bounds.elems[i]? = some lo → m.bounds.elems[i + 1]? = some hi →
      m.firstDoc ≤ d ∧ d ≤ m.lastDoc ∧
      ∃ k vs, corpus.keys[d]? = some k ∧ (m.field, Values.seq vs) ∈ content k ∧ vs ≠ [] ∧ hi = lo + vs.length
  covered : ∀ (d : Nat) k field vs, corpus.keys[d]? = some k → (field, Values.seq vs) ∈ content k → vs ≠ [] →
    ∃ m ∈ db.posDocMap, m.field = field ∧ d ∈ m.docs ∧
      ∀ m' ∈ db.posDocMap, m'.field = field → d ∈ m'.docs → m' = m
  decode : ∀ r ∈ db.posIndex, ∃ f ∈ db.features, f.fid = r.fid ∧ r.count = r.positions.card ∧
    ∃ m ∈ db.posDocMap, m.field = f.field ∧ m.firstDoc = r.firstDoc ∧
      ∀ p, p ∈ r.positions ↔ ∃ (i d lo o : Nat), m.docs.elems[i]? = some d ∧ m.bounds.elems[i]? = some lo ∧
        p = lo + o ∧ ∃ k vs, corpus.keys[d]? = some k ∧ (f.field, Values.seq vs) ∈ content k ∧
          vs[o]? = some (some f.value)
  stored : ∀ (d : Nat) k field vs (o : Nat) value, corpus.keys[d]? = some k → (field, Values.seq vs) ∈ content k →
    vs[o]? = some (some value) →
    ∃ f ∈ db.features, f.field = field ∧ f.value = value ∧
    ∃ m ∈ db.posDocMap, m.field = field ∧ ∃ (i lo : Nat), m.docs.elems[i]? = some d ∧ m.bounds.elems[i]? = some lo ∧
    ∃ r ∈ db.posIndex, r.fid = f.fid ∧ r.firstDoc = m.firstDoc ∧ lo + o ∈ r.positions
  partitions : (db.posDocMap.map (fun m => (m.field, m.firstDoc))).Nodup
  rows : (db.posIndex.map (fun r => (r.fid, r.firstDoc))).Nodup
  positional : ∀ field, (∃ row ∈ db.fieldSummary, row.field = field ∧ 0 < row.positionCount) ↔
    ∃ k ∈ corpus.keys, ∃ vs, (field, Values.seq vs) ∈ content k ∧ vs ≠ []

/-- What reindexing preserves: feature ids, and the model's assignment and pins; new features get new ids. -/
structure Reindexed (old new : DB) : Prop where
  kept : ∀ r ∈ old.features, ∃ r' ∈ new.features, r'.fid = r.fid ∧ r'.field = r.field ∧ r'.value = r.value
  fresh : ∀ r' ∈ new.features, (∃ r ∈ old.features, r'.fid = r.fid ∧ r'.field = r.field ∧ r'.value = r.value) ∨
    ∀ r ∈ old.features, r.fid < r'.fid ∧ ¬ (r'.field = r.field ∧ r'.value = r.value)
  model : new.fc.map (fun r => (r.fid, r.cid, r.pinned)) = old.fc.map (fun r => (r.fid, r.cid, r.pinned))

/-- The number of tokens a document has in the sequences of a field. -/
def tokens (field : String) (doc : Features) : Nat :=
  (doc.map (fun fv =>
    match fv.2 with
    | .seq vs => if fv.1 = field then vs.length else 0
    | .bag _ => 0)).sum

/-- The row describes its field when the values of a field are those given by `value`: the number of distinct values,
the least and the greatest one, and the number of tokens in the corpus when positions are recorded. -/
structure DescribesField (value : String → Val → Prop) (corpus : Corpus) (content : Val → Features) (positions : Bool)
    (row : FieldRow) : Prop where
  values : ∃ vs : List Val, vs.Nodup ∧ (∀ v, v ∈ vs ↔ value row.field v) ∧
    row.distinct = vs.length ∧ row.minValue ∈ vs ∧ row.maxValue ∈ vs ∧
    ∀ v ∈ vs, Val.le row.minValue v = true ∧ Val.le v row.maxValue = true
  positions : row.positionCount =
    if positions then (corpus.keys.map (fun k => tokens row.field (content k))).sum else 0

/-- The row describes the field of the corpus: the number of distinct values some document has, the least and the
greatest one, and the number of tokens when positions are recorded. -/
abbrev Summarises (corpus : Corpus) (content : Val → Features) (positions : Bool) (row : FieldRow) : Prop :=
  DescribesField (fun f v => ∃ d, Occurs corpus content f v d) corpus content positions row

end Hyperreal.Spec
