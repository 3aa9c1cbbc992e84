import Verif.Model.Query

/-!
# Positions: concordance windows, passage search, collocations (index.py)

`window_size` and `passage_overhang` are natural numbers.  Functions that SQLite rows or worker results reach in no fixed
order take that order as a parameter; theorems quantify over it.
-/

namespace Hyperreal

/-- `d[k].extend(xs)` on a `defaultdict(list)` (index.py:684, 1947, 2488). -/
def Dict.extend {κ β : Type} [DecidableEq κ] (d : Dict κ (List β)) (k : κ) (xs : List β) : Dict κ (List β) :=
  d.set k ((d.get? k).getD [] ++ xs)

/-! ## Documents and concordances -/

/-- Is it an integer? -/
def Val.isInt : Val → Bool
  | .int _ => true
  | .text _ => false

/-- Python's `sorted` on document keys (index.py:635): integers and strings do not compare. -/
def sortKeys (ks : List Val) : Except Err (List Val) :=
  if ks.all Val.isInt || ks.all (fun k => !k.isInt) then .ok (ks.insertionSort (fun a b => Val.le a b = true))
  else .error .typeError

/-- `Index.docs` (index.py:631-636) followed by `corpus.index` of each document (index.py:672, 2573): `(doc_id, key,
features)` in the order of the sorted keys. -/
def indexedDocs (corpus : Corpus) (db : DB) (query : List Nat) : Except Err (List (Nat × Val × Features)) := do
  let keys ← convertQuery db query
  let ks ← sortKeys (keys.map (·.1))
  let docs ← corpus.docs ks
  (ks.zip docs).mapM (fun x => do
    let d ← Dict.getE keys x.1
    return (d, x.1, x.2))

/-- index.py:658-667: the field and value of one requested feature.  Anything but an id or a key raises `TypeError`. -/
def windowFeature (db : DB) : FeatureRef → Except Err (String × Val)
  | .id f => lookupFeature db f
  | .key field value => .ok (field, value)
  | .range _ _ => .error .typeError

/-- index.py:669: `field_features[field].add(value)`. -/
def addWanted (acc : Dict String (List Val)) (fv : String × Val) : Dict String (List Val) :=
  acc.set fv.1 (if fv.2 ∈ (acc.get? fv.1).getD [] then (acc.get? fv.1).getD [] else (acc.get? fv.1).getD [] ++ [fv.2])

/-- index.py:681-686: the windows of a sequence; `i` numbers the remaining items `rest` of `vs`. -/
def windowLoop (wanted : List Val) (w : Nat) (vs : List (Option Val)) :
    Nat → List (Option Val) → Dict Val (List (List (Option Val))) → Dict Val (List (List (Option Val)))
  | _, [], acc => acc
  | i, some v :: rest, acc =>
    if v ∈ wanted then windowLoop wanted w vs (i + 1) rest (acc.extend v [(vs.take (i + w + 1)).drop (i - w)])
    else windowLoop wanted w vs (i + 1) rest acc
  | i, none :: rest, acc => windowLoop wanted w vs (i + 1) rest acc

/-- index.py:676-691: the windows of one field of a document; a missing field is an empty set.  (`to_match & values` is
visited in some order; here that of the requested values.) -/
def fieldWindows (w : Nat) (doc : Features) (field : String) (wanted : List Val) : Dict Val (List (List (Option Val))) :=
  match Dict.get? doc field with
  | some (.seq vs) => windowLoop wanted w vs 0 vs []
  | some (.bag vs) => (wanted.filter (fun v => some v ∈ vs)).foldl (fun acc v => acc.extend v []) []
  | none => []

/-- index.py:653-654: the optional sample. -/
def maybeSample (pick : Nat → Nat → List Nat) (query : Bitmap) : Option Int → Except Err Bitmap
  | none => .ok query
  | some k => sampleBitmap pick query k

/-- What is yielded for one document: key, id and the windows by field and value. -/
abbrev DocWindows (α : Type) := Val × Nat × Dict String (Dict Val (List α))

/-- `Index.extract_matching_feature_windows` (index.py:638-693), all that the generator yields. -/
def extractWindows (pick : Nat → Nat → List Nat) (corpus : Corpus) (db : DB) (query : Bitmap) (features : List FeatureRef)
    (w : Nat) (sample : Option Int) : Except Err (List (DocWindows (List (Option Val)))) := do
  let query ← maybeSample pick query sample
  let fvs ← features.mapM (windowFeature db)
  let wanted := fvs.foldl addWanted []
  let docs ← indexedDocs corpus db query.elems
  return docs.map (fun x => (x.2.1, x.1, wanted.map (fun e => (e.1, fieldWindows w x.2.2 e.1 e.2))))

/-- A token where a string is needed: `str.join` raises `TypeError` on anything else. -/
def tokenText : Val → Except Err String
  | .text s => .ok s
  | .int _ => .error .typeError

/-- index.py:717: `join_character.join(w for w in window if w is not None)`. -/
def joinWindow (sep : String) (window : List (Option Val)) : Except Err String := do
  let ts ← (window.filterMap (fun x => x)).mapM tokenText
  return sep.intercalate ts

/-- index.py:711-720: the windows of one field as strings. -/
def joinField (sep : String) (e : String × Dict Val (List (List (Option Val)))) :
    Except Err (String × Dict Val (List String)) := do
  let ms ← e.2.mapM (fun m => do
    let ss ← m.2.mapM (joinWindow sep)
    return (m.1, ss))
  return (e.1, ms)

/-- `Index.concordances` (index.py:695-722). -/
def concordances (pick : Nat → Nat → List Nat) (corpus : Corpus) (db : DB) (query : Bitmap) (features : List FeatureRef)
    (w : Nat) (sample : Option Int) (sep : String := " ") : Except Err (List (DocWindows String)) := do
  let docs ← extractWindows pick corpus db query features w sample
  docs.mapM (fun x => do
    let fs ← x.2.2.mapM (joinField sep)
    return (x.1, x.2.1, fs))

/-! ## Partitions -/

/-- `Index._field_partitions` (index.py:1986-1997). -/
def fieldPartitions (db : DB) (field : String) : List Nat :=
  (db.posDocMap.filter (fun m => m.field = field)).map (·.firstDoc)

/-- `Index.positional_fields` (index.py:1999-2006). -/
def positionalFields (db : DB) : List String :=
  (db.fieldSummary.filter (fun r => 0 < r.positionCount)).map (·.field)

/-- `Index._get_partition_positions` (index.py:2017-2032). -/
def partitionPositions (db : DB) (first f : Nat) : Bitmap :=
  match db.posIndex.find? (fun r => r.fid = f ∧ r.firstDoc = first) with
  | some r => r.positions
  | none => ∅

/-- `Index._union_position_query` (index.py:2008-2015). -/
def unionPositions (db : DB) (first : Nat) (features : List Nat) : Bitmap :=
  features.foldl (fun acc f => acc ∪ partitionPositions db first f) ∅

/-- `Index._get_partition_header` (index.py:2034-2053). -/
def partitionHeader (db : DB) (field : String) (first : Nat) : Except Err PosDocRow :=
  match db.posDocMap.find? (fun m => m.field = field ∧ m.firstDoc = first) with
  | some m => .ok m
  | none => .error .valueError

/-! ## Passages -/

/-- A scored passage (index.py:2488-2495): field, first and last matched offset, number of matches. -/
structure Passage where
  field : String
  start : Nat
  stop : Nat
  count : Nat
  deriving DecidableEq, Repr

/-- index.py:2411-2427: the weight of a clause in a partition. -/
def clauseWeight (db : DB) (first : Nat) (clause : List Nat) : Nat :=
  (clause.map (fun f => match db.posIndex.find? (fun r => r.fid = f ∧ r.firstDoc = first) with
    | some r => r.count
    | none => 0)).sum

/-- index.py:2440-2463: the loop over the remaining clauses; `none` is the early return. -/
def narrow (db : DB) (first : Nat) (bounds : Bitmap) (w : Nat) :
    List (List Nat) → Bitmap → Bitmap → Except Err (Option (Bitmap × Bitmap))
  | [], positions, valid => .ok (some (positions, valid))
  | c :: cs, positions, valid =>
    let hits := unionPositions db first c ∩ valid
    if hits = ∅ then .ok none
    else do
      let window ← expandWindow hits bounds w
      narrow db first bounds w cs (positions ∪ hits) (valid ∩ window)

/-- The variables of the walk through the positions (index.py:2478-2483). -/
structure Walk where
  start : Nat
  last : Nat
  docStart : Nat
  nextStart : Nat
  docId : Nat

/-- index.py:2479-2483, 2496-2500: look up the document of a position. -/
def enterDoc (docs bounds : Bitmap) (p : Nat) : Except Err Walk := do
  let rank : Int := bounds.rank p
  let docStart ← bounds.item (rank - 1)
  let nextStart ← bounds.item rank
  let docId ← docs.item (rank - 1)
  return ⟨p, p, docStart, nextStart, docId⟩

/-- index.py:2488-2495: append the passage from `start` to `last`. -/
def closePassage (field : String) (positions : Bitmap) (st : Walk) (scores : Dict Nat (List Passage)) :
    Dict Nat (List Passage) :=
  scores.extend st.docId [⟨field, st.start - st.docStart, st.last - st.docStart,
    positions.rangeCard st.start (st.last + 1)⟩]

/-- index.py:2485-2526: the walk.  The `else` of the `for` loop always runs. -/
def walk (field : String) (docs bounds positions : Bitmap) (w : Nat) :
    Walk → List Nat → Dict Nat (List Passage) → Except Err (Dict Nat (List Passage))
  | st, [], scores => .ok (if st.last ≠ st.start then closePassage field positions st scores else scores)
  | st, p :: ps, scores =>
    if p ≥ st.nextStart then do
      let st' ← enterDoc docs bounds p
      walk field docs bounds positions w st' ps (closePassage field positions st scores)
    else if p - st.last > w then
      walk field docs bounds positions w { st with start := p, last := p } ps (closePassage field positions st scores)
    else walk field docs bounds positions w { st with last := p } ps scores

/-- index.py:2469-2526: from the surviving positions to the passages. -/
def passagesOf (field : String) (docs bounds positions : Bitmap) (w : Nat) : Except Err (Dict Nat (List Passage)) :=
  match positions.elems with
  | [] => .ok []
  | p :: ps => do
    let st ← enterDoc docs bounds p
    walk field docs bounds positions w st ps []

/-- `_score_passages_dnf` (index.py:2403-2532).  `arrange` is the outcome of `clause_weights.sort()`: clauses of equal
weight are compared as sets, which is not a total order, so that nothing but a rearrangement is assumed. -/
def scorePartition (arrange : List (Nat × List Nat) → List (Nat × List Nat)) (db : DB) (field : String) (first : Nat)
    (clauses : List (List Nat)) (w : Nat) : Except Err (Dict Nat (List Passage)) := do
  let m ← partitionHeader db field first
  match arrange (clauses.map (fun c => (clauseWeight db first c, c))) with
  | [] => .error .indexError
  | c :: cs => do
    let valid ← expandWindow (unionPositions db first c.2) m.bounds w
    match ← narrow db first m.bounds w (cs.map (·.2)) (unionPositions db first c.2) valid with
    | none => .ok []
    | some (positions, valid) => passagesOf field m.docs m.bounds (positions ∩ valid) w

/-- index.py:1915-1921: one feature of a clause.  What is neither an id nor a key is ignored. -/
def addToClause (db : DB) (acc : Dict String (List Nat)) : FeatureRef → Except Err (Dict String (List Nat))
  | .id f => do
    let fv ← lookupFeature db f
    return acc.set fv.1 (if f ∈ (acc.get? fv.1).getD [] then (acc.get? fv.1).getD [] else (acc.get? fv.1).getD [] ++ [f])
  | .key field value => do
    let f ← lookupFeatureId db field value
    return acc.set field (if f ∈ (acc.get? field).getD [] then (acc.get? field).getD [] else (acc.get? field).getD [] ++ [f])
  | .range _ _ => .ok acc

/-- index.py:1923-1925: `field_clauses[field].append(clause)` for the fields with positions. -/
def addClause (positional : List String) (acc : Dict String (List (List Nat))) (clause : Dict String (List Nat)) :
    Dict String (List (List Nat)) :=
  clause.foldl (fun acc e => if e.1 ∈ positional then acc.extend e.1 [e.2] else acc) acc

/-- index.py:1908-1925: the queries by field. -/
def fieldClauses (db : DB) (clauses : List (List FeatureRef)) : Except Err (Dict String (List (List Nat))) := do
  let byField ← clauses.mapM (fun c => c.foldlM (addToClause db) [])
  return byField.foldl (addClause (positionalFields db)) []

/-- `Index.score_passages_dnf` (index.py:1894-1949).  `order` is the order in which the workers finish. -/
def scorePassages (arrange : List (Nat × List Nat) → List (Nat × List Nat))
    (order : List (String × Nat × List (List Nat)) → List (String × Nat × List (List Nat))) (db : DB)
    (clauses : List (List FeatureRef)) (w : Nat) : Except Err (Dict Nat (List Passage)) := do
  let queries ← fieldClauses db clauses
  let results ← (order (queries.flatMap (fun e => (fieldPartitions db e.1).map (fun first => (e.1, first, e.2))))).mapM
    (fun t => scorePartition arrange db t.1 t.2.1 t.2.2 w)
  return results.foldl (fun acc scores => scores.foldl (fun acc e => acc.extend e.1 e.2) acc) []

/-! ## Collocations -/

/-- `_count_collocations` (index.py:2535-2561): `(feature_id, count, feature_count)` triples, and the sizes of the query
and of the window. -/
def countPartition (db : DB) (field : String) (first : Nat) (features : List Nat) (w : Nat) :
    Except Err (List (Nat × Nat × Nat) × Nat × Nat) := do
  let positions := unionPositions db first features
  let m ← partitionHeader db field first
  let valid ← expandWindow positions m.bounds w
  let others := (db.posIndex.filter (fun r => r.firstDoc = first)).map (·.fid)
  let counts := (others.filter (fun f => f ∉ features ∧ partitionPositions db first f ≠ ∅)).map (fun f =>
    (f, (valid ∩ partitionPositions db first f).card, (partitionPositions db first f).card))
  return (counts, positions.card, valid.card)

/-- index.py:1981-1983: add the counts of one partition. -/
def addCounts (acc : Dict Nat (Nat × Nat)) (counts : List (Nat × Nat × Nat)) : Dict Nat (Nat × Nat) :=
  counts.foldl (fun acc c =>
    acc.set c.1 (((acc.get? c.1).getD (0, 0)).1 + c.2.1, ((acc.get? c.1).getD (0, 0)).2 + c.2.2)) acc

/-- `Index.count_collocations` (index.py:1951-1984). -/
def countCollocations (order : List Nat → List Nat) (db : DB) (field : String) (features : List Nat) (w : Nat) :
    Except Err (Dict Nat (Nat × Nat) × Nat × Nat) := do
  let results ← (order (fieldPartitions db field)).mapM (fun first => countPartition db field first features w)
  return (results.foldl (fun acc r => addCounts acc r.1) [], (results.map (·.2.1)).sum, (results.map (·.2.2)).sum)

/-! ## Rendering passages -/

/-- What a rendered row holds for a field (index.py:2587-2595): a set of values, or the texts of the passages. -/
inductive RowCell where
  | values (vs : List (Option Val))
  | passages (ts : List String)
  deriving DecidableEq

/-- An item where a string is needed (index.py:2579): `None` is not one. -/
def itemText : Option Val → Except Err String
  | some v => tokenText v
  | none => .error .typeError

/-- `" ".join(tokens)` (index.py:2579): raises `TypeError` unless all tokens are strings. -/
def joinTokens (tokens : List (Option Val)) : Except Err String := do
  let ts ← tokens.mapM itemText
  return " ".intercalate ts

/-- index.py:2577-2585: the text of one passage.  A missing field raises `KeyError`, slicing a set `TypeError`. -/
def passageText (overhang : Nat) (doc : Features) (p : Passage) : Except Err String :=
  match Dict.get? doc p.field with
  | none => .error .keyError
  | some (.bag _) => .error .typeError
  | some (.seq vs) => joinTokens ((vs.take (p.stop + overhang)).drop (p.start - overhang))

/-- index.py:2587-2595: the row of a document: its set fields, and the passages. -/
def passageRow (doc : Features) (texts : Dict String (List String)) : Dict String RowCell :=
  texts.foldl (fun acc e => acc.set e.1 (.passages e.2))
    (doc.filterMap (fun e => match e.2 with
      | .bag vs => some (e.1, .values vs)
      | .seq _ => none))

/-- index.py:2572-2597: one document. -/
def constructDoc (overhang : Nat) (scored : Dict Nat (List Passage)) (x : Nat × Val × Features) :
    Except Err (Nat × Val × Dict String RowCell) := do
  let ps ← Dict.getE scored x.1
  let texts ← ps.mapM (passageText overhang x.2.2)
  let byField := (ps.zip texts).foldl (fun (acc : Dict String (List String)) pt => acc.extend pt.1.field [pt.2]) []
  return (x.1, x.2.1, passageRow x.2.2 byField)

/-- `_construct_passages` (index.py:2564-2599). -/
def constructPassages (corpus : Corpus) (db : DB) (scored : Dict Nat (List Passage)) (overhang : Nat) :
    Except Err (List (Nat × Val × Dict String RowCell)) := do
  let docs ← indexedDocs corpus db (scored.map (·.1))
  docs.mapM (constructDoc overhang scored)

/-- index.py:769-784: batches of `size ≥ 1` entries. -/
def chunks {α : Type} (size : Nat) : Nat → List α → List (List α)
  | 0, _ => []
  | _, [] => []
  | n + 1, l => l.take size :: chunks size n (l.drop size)

/-- index.py:760-767: the optional sample of documents; `keep` is what the random numbers select. -/
def samplePassages (keep : Nat → List Nat → List Nat) (scored : Dict Nat (List Passage)) : Option Nat → Dict Nat (List Passage)
  | none => scored
  | some k => (keep k (scored.map (·.1))).filterMap (fun d => (Dict.get? scored d).map (fun ps => (d, ps)))

/-- `Index.render_passages_table` (index.py:746-789), all that is yielded.  `order` is the order in which the workers
finish; `batch_size ≥ 1`. -/
def renderPassages (keep : Nat → List Nat → List Nat)
    (order : List (Dict Nat (List Passage)) → List (Dict Nat (List Passage))) (corpus : Corpus) (db : DB)
    (scored : Dict Nat (List Passage)) (overhang : Nat := 20) (batchSize : Nat := 1000) (sample : Option Nat := none) :
    Except Err (List (Nat × Val × Dict String RowCell)) := do
  let scored := samplePassages keep scored sample
  let results ← (order (chunks batchSize scored.length scored)).mapM (fun b => constructPassages corpus db b overhang)
  return results.flatten

end Hyperreal
