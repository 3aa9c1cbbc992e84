import Verif.Lemmas.Windows
import Verif.Lemmas.Collocations
import Verif.Lemmas.Render
import Verif.Props.Query

/-!
# Properties of positions: concordances, passages, collocations (C36-C40)

`Spec.Searchable corpus content db`: the database is what a successful `index` with positions leaves
(`index_searchable`).  `arrange` and `order` are the orders of clauses and of finished workers, which the code does not
fix.
-/

namespace Hyperreal.Props
open Spec DB Atomic

/-- A successful `index` with positions leaves a searchable database. -/
theorem index_searchable {corpus : Corpus} {content : Val → Features} {cfg : IndexCfg} {s : Schedule} {c : Conn DB}
    {db : DB} (hc : Idle c db) (hp : Pending db) (hs : Serves corpus content) (hf : Fair s)
    (hpos : cfg.positions = true) (h : (indexCall corpus cfg s c).2 = .ok ()) :
    ∃ new, Idle (indexCall corpus cfg s c).1 new ∧ Searchable corpus content new := by
  obtain ⟨hi, -, -, new, h1, h2, ⟨h3, -, h3', h4, h5, h6⟩, -⟩ := index_success hc hp hs hf h
  have hR := reindexed_isIndex (s := s) hs hi hf hp.toWellformed
  obtain ⟨new', g1, g2⟩ := index_positions hc hp hs hf hpos h
  have : new' = new := g1.committed.symm.trans h1.committed
  subst this
  refine ⟨new', h1, hs, h2.toWellformed, ⟨?_, ?_, ?_, ?_⟩, g2⟩
  · rw [h3']; exact hR.docKeys
  · rw [h3']; exact hR.docIds
  · intro f v d; rw [docsOfKey, h3]; exact hR.lookup f v d
  · intro r hr d
    rw [h3] at hr
    rw [docsOf, feature?, h3]; exact hR.featureLookup r hr d

/-! ## Three corpora -/

/-- Documents given as texts of one-letter tokens, keyed by position. -/
def texts (docs : List (List String)) : Val → Features
  | .int i => [("text", .seq ((docs[i.toNat]?.getD []).map (fun t => some (.text t))))]
  | _ => []

/-- The corpus of these documents. -/
def textCorpus (docs : List (List String)) : Corpus :=
  { keys := (List.range docs.length).map (fun i : Nat => Val.int (Int.ofNat i)), docs := fun ks => .ok (ks.map (texts docs)) }

/-- Its index. -/
def textDb (docs : List (List String)) : DB :=
  (indexCall (textCorpus docs) { size := 10, workers := 2, positions := true } demoSchedule (Conn.fresh {})).1.committed

theorem textDb_searchable (docs : List (List String))
    (hne : docs ≠ []) : Searchable (textCorpus docs) (texts docs) (textDb docs) := by
  have hs : Serves (textCorpus docs) (texts docs) := by
    constructor
    · exact (List.nodup_range).map (fun a b h => by simpa using h)
    · intro ks _; rfl
    · intro k hk
      obtain ⟨i, -, rfl⟩ := List.mem_map.1 hk
      simp [texts]
  have hi : Indexable (textCorpus docs) (texts docs) true := by
    intro _ k hk f vs h
    obtain ⟨i, -, rfl⟩ := List.mem_map.1 hk
    simp [texts] at h
    rw [h.2]; simp
  have hidle : Idle (Conn.fresh ({} : DB)) {} := ⟨rfl, rfl, rfl, rfl, rfl, rfl⟩
  have hset : Settled ({} : DB) := by
    refine ⟨⟨?_, ?_, ?_, ?_, ?_, ?_, ?_⟩, ?_, rfl⟩ <;> simp
  have hok := index_succeeds (cfg := { size := 10, workers := 2, positions := true }) hidle hset hs hi demo_fair
    (by cases docs with | nil => exact absurd rfl hne | cons a l => simp [textCorpus, List.range_succ_eq_map]) (fun _ => rfl)
  obtain ⟨new, h1, h2⟩ := index_searchable hidle (Settled.toPending hset) hs demo_fair rfl hok
  have : textDb docs = new := h1.committed
  rw [this]; exact h2

/-! ## Passages -/

section
variable {corpus : Corpus} {content : Val → Features} {db : DB}

/-- **C38.** `score_passages_dnf` succeeds whenever the features are known, and its passages describe real spans: for every
document and field there are matched offsets `M` (offsets where a clause matches) of which the passages are the runs —
each passage goes from a member of `M` to a member, counts the members between, neighbours in a passage are at most
`w` apart, different passages are more than `w` apart and in ascending order; only a lone last member can be
missing.  (`Spec.Matched` also says which matches are in `M`, see C37.) -/
theorem passage_spans (h : Searchable corpus content db) (arrange : List (Nat × List Nat) → List (Nat × List Nat))
    (ha : ∀ l, (arrange l).Perm l)
    (order : List (String × Nat × List (List Nat)) → List (String × Nat × List (List Nat))) (ho : ∀ l, (order l).Perm l)
    (clauses : List (List FeatureRef)) (hk : ∀ c ∈ clauses, Known db c) (w : Nat) :
    ∃ result, scorePassages arrange order db clauses w = .ok result ∧ ∀ d field, ∃ M,
      Matched corpus content db clauses w field d M ∧ AreRuns M w (passagesIn result field d) :=
  scorePassages_spec h.positions h.consistent h.serves arrange ha order ho clauses hk w

/-- **C37 (part proved).** The full property reads: a document has a passage in a field exactly when it has matches of all
clauses of that field within the window, in that document.  Proved: matches of all clauses at pairwise distance at
most `w`, at two different offsets at least, are covered by a passage; and a passage begins and ends at matches that
have a match of every clause of the field at distance at most `w`, or are offset 0 with that match at the end of the
document before.  Not true of the code: that a match at a single offset is always found
(`passage_final_hit_dropped`), that no match of another document is used (`passage_leaks`), and, for three or more
clauses, that the matches are at pairwise distance at most `w` (`passage_not_pairwise`) or that it suffices for one
match to be near one of every other clause (`passage_star_missed`). -/
theorem passages_partial (h : Searchable corpus content db) (arrange : List (Nat × List Nat) → List (Nat × List Nat))
    (ha : ∀ l, (arrange l).Perm l)
    (order : List (String × Nat × List (List Nat)) → List (String × Nat × List (List Nat))) (ho : ∀ l, (order l).Perm l)
    (clauses : List (List FeatureRef)) (hk : ∀ c ∈ clauses, Known db c) (w : Nat) :
    ∃ result, scorePassages arrange order db clauses w = .ok result ∧
      (∀ d field, ∀ T : Finset Nat, (∀ o ∈ T, ∃ c ∈ clauses, MatchAt corpus content db field c d o) →
        (∀ c ∈ clauses, Concerns db field c → ∃ o ∈ T, MatchAt corpus content db field c d o) →
        (∀ o ∈ T, ∀ o' ∈ T, Close w o o') →
        ∀ o ∈ T, ∀ o' ∈ T, o < o' → ∃ p ∈ passagesIn result field d, p.start ≤ o ∧ o' ≤ p.stop) ∧
      (∀ d field, ∀ p ∈ passagesIn result field d, ∀ o, o = p.start ∨ o = p.stop →
        (∃ c ∈ clauses, MatchAt corpus content db field c d o) ∧
        ∀ c ∈ clauses, Concerns db field c → (∃ o', MatchAt corpus content db field c d o' ∧ Close w o o') ∨
          LeakAt corpus content db field w (MatchAt corpus content db field c) d o) := by
  obtain ⟨result, h1, h2⟩ := passage_spans h arrange ha order ho clauses hk w
  refine ⟨result, h1, ?_, ?_⟩
  · intro d field T hT1 hT2 hT3 o hoT o' hoT' hlt
    obtain ⟨M, hM, hr⟩ := h2 d field
    have hsub := hM.complete T hT1 hT2 hT3
    exact hr.together o (hsub hoT) o' (hsub hoT') hlt (hT3 o hoT o' hoT').2
  · intro d field p hp o hpo
    obtain ⟨M, hM, hr⟩ := h2 d field
    obtain ⟨-, a, b⟩ := hr.ends p hp
    have hoM : o ∈ M := by rcases hpo with rfl | rfl <;> assumption
    exact ⟨hM.isMatch o hoM, hM.near o hoM⟩

/-- **C37, two clauses.** For two clauses, a document whose field has a passage has matches of both at most `w` apart,
unless the passage begins at offset 0 and leaks from the document before. -/
theorem passages_two_clauses (h : Searchable corpus content db) (arrange : List (Nat × List Nat) → List (Nat × List Nat))
    (ha : ∀ l, (arrange l).Perm l)
    (order : List (String × Nat × List (List Nat)) → List (String × Nat × List (List Nat))) (ho : ∀ l, (order l).Perm l)
    (a b : List FeatureRef) (hka : Known db a) (hkb : Known db b) (w : Nat) :
    ∃ result, scorePassages arrange order db [a, b] w = .ok result ∧
      ∀ d field, Concerns db field a → Concerns db field b → ∀ p ∈ passagesIn result field d, p.stop ≠ 0 →
        ∃ o o', MatchAt corpus content db field a d o ∧ MatchAt corpus content db field b d o' ∧ Close w o o' := by
  obtain ⟨result, h1, -, h2⟩ := passages_partial h arrange ha order ho [a, b] (by simp [hka, hkb]) w
  refine ⟨result, h1, ?_⟩
  intro d field ca cb p hp hne
  obtain ⟨⟨c, hc, hm⟩, hnear⟩ := h2 d field p hp p.stop (Or.inr rfl)
  simp only [List.mem_cons, List.not_mem_nil, or_false] at hc
  rcases hc with rfl | rfl
  · rcases hnear b (by simp) cb with ⟨o', h3, h4⟩ | ⟨h3, -⟩
    · exact ⟨_, o', hm, h3, h4⟩
    · exact absurd h3 hne
  · rcases hnear a (by simp) ca with ⟨o', h3, h4⟩ | ⟨h3, -⟩
    · exact ⟨o', _, h3, hm, h4.2, h4.1⟩
    · exact absurd h3 hne

end

/-- A token of the text field. -/
def tok (t : String) : FeatureRef := .key "text" (.text t)

/-- The clauses of an example are known. -/
theorem known_iff {db : DB} (c : List FeatureRef) : Known db c ↔
    ∀ ref ∈ c, (match ref with | .range _ _ => true | _ => false) = true ∨ ∃ r ∈ db.features, Refers ref r := by
  constructor
  · intro h ref hr
    rcases h ref hr with ⟨a, b, rfl⟩ | h
    · exact Or.inl rfl
    · exact Or.inr h
  · intro h ref hr
    rcases h ref hr with h | h
    · cases ref <;> simp at h
      exact Or.inl ⟨_, _, rfl⟩
    · exact Or.inr h

instance (ref : FeatureRef) (r : FeatRow) : Decidable (Refers ref r) := by
  cases ref <;> unfold Refers <;> infer_instance

instance (db : DB) (c : List FeatureRef) : Decidable (Known db c) := decidable_of_iff _ (known_iff c).symm

/-- Two documents; "a" or "c" near "b": found at offsets 1-2 of the first, not in the second, where they are 3 apart. -/
example : let db := textDb [["x", "a", "b", "x"], ["a", "x", "x", "b"]]
    Searchable (textCorpus [["x", "a", "b", "x"], ["a", "x", "x", "b"]]) (texts [["x", "a", "b", "x"], ["a", "x", "x", "b"]]) db ∧
    (∀ c ∈ [[tok "a"], [tok "b"]], Known db c) ∧
    (scorePassages id List.reverse db [[tok "a"], [tok "b"]] 2).toOption = some [(0, [⟨"text", 1, 2, 2⟩])] :=
  ⟨textDb_searchable _ (by decide), by decide +kernel, by decide +kernel⟩

/-- **C37, refutation: the final hit is dropped.** The only document is the one token "a"; searching for "a" finds nothing.
In front of another match it is found. -/
theorem passage_final_hit_dropped :
    (scorePassages id id (textDb [["a"]]) [[tok "a"]] 5).toOption = some [] ∧
    TokenAt (textCorpus [["a"]]) (texts [["a"]]) "text" 0 0 (.text "a") ∧
    (scorePassages id id (textDb [["a"], ["a"]]) [[tok "a"]] 5).toOption = some [(0, [⟨"text", 0, 0, 1⟩])] :=
  ⟨by decide +kernel, ⟨[some (.text "a")], ⟨.int 0, by decide, by decide⟩, by decide⟩, by decide +kernel⟩

/-- **C37, refutation: documents are not separated.** Searching for "a" and "b" at most 1 apart finds a passage in the
second document, which does not contain "a". -/
theorem passage_leaks :
    (scorePassages id id (textDb [["x", "a"], ["b"], ["a", "b"]]) [[tok "a"], [tok "b"]] 1).toOption =
      some [(1, [⟨"text", 0, 0, 1⟩]), (2, [⟨"text", 0, 1, 2⟩])] := by
  decide +kernel

/-- **C37, refutation: no pairwise closeness.** "a", "b" and "c" at pairwise distance at most 1 are impossible, but a passage
is returned. -/
theorem passage_not_pairwise :
    (scorePassages id id (textDb [["b", "a", "c", "b", "a"]]) [[tok "a"], [tok "b"], [tok "c"]] 1).toOption =
      some [(0, [⟨"text", 1, 3, 3⟩])] := by
  decide +kernel

/-- **C37, refutation: one common neighbour is not enough.** "b" is next to "a" and to "c", but nothing is returned. -/
theorem passage_star_missed :
    (scorePassages id id (textDb [["a", "b", "c"]]) [[tok "a"], [tok "b"], [tok "c"]] 1).toOption = some [] := by
  decide +kernel

/-! ## Concordances -/

section
variable {corpus : Corpus} {content : Val → Features} {db : DB}

theorem get?_mapDict {κ α β : Type} [DecidableEq κ] (g : κ × α → β) (k : κ) : ∀ d : Dict κ α,
    Dict.get? (d.map (fun e => (e.1, g e)) : Dict κ β) k = (Dict.get? d k).map (fun v => g (k, v)) := by
  intro d
  induction d with
  | nil => rfl
  | cons e d ih =>
    rw [List.map_cons, Dict.get?_cons, Dict.get?_cons]
    split
    · rename_i h; subst h; rfl
    · exact ih

theorem maybeSample_ok (pick : Nat → Nat → List Nat) (hp : Draws pick) (query : Bitmap) (sample : Option Int)
    (hk : ∀ k, sample = some k → 0 ≤ k) :
    ∃ s, maybeSample pick query sample = .ok s ∧ s ⊆ query ∧ (sample = none → s = query) ∧
      ∀ k, sample = some k → (s.card : Int) = min k query.card := by
  cases sample with
  | none => exact ⟨query, rfl, Finset.Subset.refl _, fun _ => rfl, by simp⟩
  | some k =>
    obtain ⟨s, h1, h2, h3⟩ := sample_bitmap_exact pick hp query k (hk k rfl)
    exact ⟨s, h1, h2, by simp, by intro k' e; cases e; exact h3⟩

/-- **C36.** `extract_matching_feature_windows` yields every document of the query (of a sample of the requested size, if
any) once, in the order of the keys.  For each requested value of a sequence field of a document it reports one
window per occurrence, in order of occurrence: the tokens at distance at most `w` in that document.  A value of a set
field is reported without windows; values that do not occur, or are not requested, are not reported. -/
theorem windows_exact (pick : Nat → Nat → List Nat) (hp : Draws pick) (hs : Serves corpus content)
    (hw : Wellformed db) (hI : IsIndexOf corpus content db) (query : Bitmap) (hq : ∀ d ∈ query, d < corpus.keys.length)
    (hsort : Sortable (query.elems.filterMap (fun d => corpus.keys[d]?))) (features : List FeatureRef)
    (hu : Understood db features) (w : Nat) (sample : Option Int) (hk : ∀ k, sample = some k → 0 ≤ k) :
    ∃ (s : Bitmap) (result : List (DocWindows (List (Option Val)))),
      extractWindows pick corpus db query features w sample = .ok result ∧
      s ⊆ query ∧ (sample = none → s = query) ∧ (∀ k, sample = some k → (s.card : Int) = min k query.card) ∧
      (result.map (·.2.1)).Perm s.elems ∧ (result.map (·.1)).Pairwise (fun a b => Val.le a b = true) ∧
      ∀ x ∈ result, corpus.keys[x.2.1]? = some x.1 ∧ ∀ field v,
        (¬ Requested db features field v → reported x.2.2 field v = none) ∧
        ((∀ vs, (field, vs) ∈ content x.1 → some v ∉ vs.items) → reported x.2.2 field v = none) ∧
        (∀ vs, Requested db features field v → (field, Values.seq vs) ∈ content x.1 → some v ∈ vs →
          reported x.2.2 field v = some ((occurrences vs v).map (neighbourhood w vs))) ∧
        (∀ vs, Requested db features field v → (field, Values.bag vs) ∈ content x.1 → some v ∈ vs →
          reported x.2.2 field v = some []) := by
  obtain ⟨s, h1, h2, h3, h4⟩ := maybeSample_ok pick hp query sample hk
  obtain ⟨fvs, h5, h6⟩ := windowFeature_ok hw features hu
  have hsub : Sortable (s.elems.filterMap (fun d => corpus.keys[d]?)) := by
    have : ∀ k ∈ s.elems.filterMap (fun d => corpus.keys[d]?), k ∈ query.elems.filterMap (fun d => corpus.keys[d]?) := by
      intro k hk
      obtain ⟨d, hd, e⟩ := List.mem_filterMap.1 hk
      exact List.mem_filterMap.2 ⟨d, Bitmap.mem_elems.2 (h2 (Bitmap.mem_elems.1 hd)), e⟩
    rcases hsort with h | h
    · exact Or.inl (fun k hk => h k (this k hk))
    · exact Or.inr (fun k hk => h k (this k hk))
  obtain ⟨docs, g1, g2, g3, g4⟩ := indexedDocs_spec hs hI s.elems (Bitmap.elems_nodup s)
    (fun d hd => hq d (h2 (Bitmap.mem_elems.1 hd))) hsub
  obtain ⟨-, hwant⟩ := wanted_spec fvs [] (by simp [Dict.keys])
  refine ⟨s, docs.map (fun x => (x.2.1, x.1, (fvs.foldl addWanted []).map (fun e => (e.1, fieldWindows w x.2.2 e.1 e.2)))),
    ?_, h2, h3, h4, ?_, ?_, ?_⟩
  · rw [extractWindows, h1]
    show (features.mapM (windowFeature db) >>= fun fvs => _) = _
    rw [h5]
    show (indexedDocs corpus db s.elems >>= fun docs => _) = _
    rw [g1]; rfl
  · rw [List.map_map]; exact g2
  · rw [List.map_map]; exact g4
  · intro x hx
    obtain ⟨y, hy, rfl⟩ := List.mem_map.1 hx
    obtain ⟨k1, k2⟩ := g3 y hy
    have hkey : y.2.1 ∈ corpus.keys := List.mem_of_getElem? k1
    refine ⟨k1, ?_⟩
    intro field v
    have hrep : reported ((fvs.foldl addWanted []).map (fun e => (e.1, fieldWindows w y.2.2 e.1 e.2))) field v =
        match Dict.get? (fvs.foldl addWanted []) field with
        | none => none
        | some wanted => Dict.get? (fieldWindows w y.2.2 field wanted) v := by
      rw [reported, get?_mapDict (fun e : String × List Val => fieldWindows w y.2.2 e.1 e.2)]
      cases Dict.get? (fvs.foldl addWanted []) field <;> rfl
    have hreq : ∀ wanted, Dict.get? (fvs.foldl addWanted []) field = some wanted →
        (v ∈ wanted ↔ Requested db features field v) := by
      intro wanted hg
      have := hwant field v
      rw [hg] at this
      simp only [Option.getD_some, Dict.get?_nil, Option.getD_none, List.not_mem_nil, false_or] at this
      rw [this, h6]
    have hnone : Dict.get? (fvs.foldl addWanted []) field = none → ¬ Requested db features field v := by
      intro hg hr
      have := (hwant field v).2 (Or.inr ((h6 field v).2 hr))
      rw [hg] at this
      simp at this
    have hnod : (Dict.keys (content y.2.1)).Nodup := hs.fields _ hkey
    have hbag : ∀ wanted vs, Dict.get? (y.2.2) field = some (Values.bag vs) →
        Dict.get? (fieldWindows w y.2.2 field wanted) v = if v ∈ wanted ∧ some v ∈ vs then some [] else none := by
      intro wanted vs hg
      rw [fieldWindows, hg]
      rw [windows_of_bag v _ [] (by simp)]
      simp
    have hseq : ∀ wanted vs, Dict.get? (y.2.2) field = some (Values.seq vs) →
        Dict.get? (fieldWindows w y.2.2 field wanted) v =
          if v ∈ wanted ∧ some v ∈ vs then some ((occurrences vs v).map (neighbourhood w vs)) else none := by
      intro wanted vs hg
      rw [fieldWindows, hg]
      exact windows_of_seq wanted w vs v
    refine ⟨?_, ?_, ?_, ?_⟩
    · intro hr
      rw [hrep]
      cases hg : Dict.get? (fvs.foldl addWanted []) field with
      | none => rfl
      | some wanted =>
        have hv : v ∉ wanted := fun h => hr ((hreq wanted hg).1 h)
        show Dict.get? (fieldWindows w y.2.2 field wanted) v = none
        cases hd : Dict.get? y.2.2 field with
        | none => rw [fieldWindows, hd]; rfl
        | some vs =>
          cases vs with
          | seq vs => rw [hseq wanted vs hd, if_neg (fun h => hv h.1)]
          | bag vs => rw [hbag wanted vs hd, if_neg (fun h => hv h.1)]
    · intro hno
      rw [hrep]
      cases hg : Dict.get? (fvs.foldl addWanted []) field with
      | none => rfl
      | some wanted =>
        show Dict.get? (fieldWindows w y.2.2 field wanted) v = none
        cases hd : Dict.get? y.2.2 field with
        | none => rw [fieldWindows, hd]; rfl
        | some vs =>
          have hm := Dict.mem_of_get? hd
          rw [k2] at hm
          have := hno vs hm
          cases vs with
          | seq vs => rw [hseq wanted vs hd, if_neg (fun h => this h.2)]
          | bag vs => rw [hbag wanted vs hd, if_neg (fun h => this h.2)]
    · intro vs hr hm hv
      rw [hrep]
      cases hg : Dict.get? (fvs.foldl addWanted []) field with
      | none => exact absurd hr (hnone hg)
      | some wanted =>
        have hd : Dict.get? y.2.2 field = some (Values.seq vs) := by rw [k2]; exact Dict.get?_of_mem hnod hm
        show Dict.get? (fieldWindows w y.2.2 field wanted) v = _
        rw [hseq wanted vs hd, if_pos ⟨(hreq wanted hg).2 hr, hv⟩]
    · intro vs hr hm hv
      rw [hrep]
      cases hg : Dict.get? (fvs.foldl addWanted []) field with
      | none => exact absurd hr (hnone hg)
      | some wanted =>
        have hd : Dict.get? y.2.2 field = some (Values.bag vs) := by rw [k2]; exact Dict.get?_of_mem hnod hm
        show Dict.get? (fieldWindows w y.2.2 field wanted) v = _
        rw [hbag wanted vs hd, if_pos ⟨(hreq wanted hg).2 hr, hv⟩]

/-- Documents whose keys are of both types cannot be sorted: `TypeError`. -/
theorem windows_mixed_keys_fail (pick : Nat → Nat → List Nat) (hw : Wellformed db) (hI : IsIndexOf corpus content db)
    (query : Bitmap) (hq : ∀ d ∈ query, d < corpus.keys.length)
    (hsort : ¬ Sortable (query.elems.filterMap (fun d => corpus.keys[d]?))) (features : List FeatureRef)
    (hu : Understood db features) (w : Nat) : extractWindows pick corpus db query features w none = .error .typeError := by
  obtain ⟨fvs, h5, -⟩ := windowFeature_ok hw features hu
  obtain ⟨a, -, b⟩ := Props.convertQuery_spec db query.elems
  obtain ⟨r, hr⟩ := b (fun d hd => ⟨corpus.keys[d]'(hq d (Bitmap.mem_elems.1 hd)),
    (hI.docKeys _ _).2 (List.getElem?_eq_getElem (hq d (Bitmap.mem_elems.1 hd)))⟩)
  obtain ⟨a1, a2⟩ := a r hr
  have hks : query.elems.filterMap (fun d => corpus.keys[d]?) = r.map (·.1) := by
    have hkey : ∀ x ∈ r, corpus.keys[x.2]? = some x.1 := fun x hx => (hI.docKeys _ _).1 (a2 x hx)
    rw [← a1, List.filterMap_map]
    clear a1 hr a2 hsort
    induction r with
    | nil => rfl
    | cons x r ih =>
      rw [List.filterMap_cons, List.map_cons, ← ih (fun y hy => hkey y (by simp [hy]))]
      simp only [Function.comp]
      rw [hkey x (by simp)]
  rw [hks] at hsort
  rw [extractWindows]
  show (features.mapM (windowFeature db) >>= fun fvs => _) = _
  rw [h5]
  have : indexedDocs corpus db query.elems = .error .typeError := by
    rw [indexedDocs, hr]
    show (sortKeys (r.map (·.1)) >>= fun ks => _) = _
    rw [sortKeys_err hsort]; rfl
  show (indexedDocs corpus db query.elems >>= fun docs => _) = _
  rw [this]; rfl

/-- A request that is neither a key nor the id of a feature of the index raises, whatever the query. -/
theorem windows_unknown_fail (pick : Nat → Nat → List Nat) (query : Bitmap) (features : List FeatureRef)
    (hu : ¬ Understood db features) (w : Nat) :
    ∃ e, extractWindows pick corpus db query features w none = .error e ∧ (e = .keyError ∨ e = .typeError) := by
  have : ∃ e, features.mapM (windowFeature db) = .error e ∧ (e = .keyError ∨ e = .typeError) := by
    induction features with
    | nil => exact absurd (by simp [Understood]) hu
    | cons ref features ih =>
      rw [List.mapM_cons]
      by_cases hr : ∃ fv, windowFeature db ref = .ok fv
      · obtain ⟨fv, hfv⟩ := hr
        have hrest : ¬ Understood db features := by
          intro h
          apply hu
          intro r hm
          rcases List.mem_cons.1 hm with rfl | hm
          · cases r with
            | key f v => trivial
            | range a b => cases hfv
            | id f =>
              rw [windowFeature, lookupFeature] at hfv
              split at hfv
              · rename_i r hr
                rw [DB.feature?] at hr
                exact ⟨r, List.mem_of_find?_eq_some hr, by simpa using List.find?_some hr⟩
              · cases hfv
          · exact h r hm
        obtain ⟨e, h1, h2⟩ := ih hrest
        rw [hfv]
        show ∃ e, (features.mapM (windowFeature db) >>= fun x => _) = .error e ∧ _
        rw [h1]
        exact ⟨e, rfl, h2⟩
      · cases hfe : windowFeature db ref with
        | ok fv => exact absurd ⟨fv, hfe⟩ hr
        | error e =>
          refine ⟨e, rfl, ?_⟩
          cases ref with
          | key f v => cases hfe
          | range a b => cases hfe; exact Or.inr rfl
          | id f =>
            rw [windowFeature, lookupFeature] at hfe
            split at hfe <;> cases hfe
            exact Or.inl rfl
  obtain ⟨e, h1, h2⟩ := this
  refine ⟨e, ?_, h2⟩
  rw [extractWindows]
  show (features.mapM (windowFeature db) >>= fun fvs => _) = _
  rw [h1]; rfl

/-- **C36** for `concordances`: when all tokens of the windows are strings, the windows are turned into strings one by one,
leaving out the `None`s and joining the rest. -/
theorem concordances_join (pick : Nat → Nat → List Nat) (query : Bitmap) (features : List FeatureRef) (w : Nat)
    (sample : Option Int) (sep : String) (docs : List (DocWindows (List (Option Val))))
    (h : extractWindows pick corpus db query features w sample = .ok docs)
    (htext : ∀ x ∈ docs, ∀ e ∈ x.2.2, ∀ m ∈ e.2, ∀ window ∈ m.2, ∀ v, some v ∈ window → ∃ t, v = .text t) :
    concordances pick corpus db query features w sample sep = .ok (docs.map (fun x => (x.1, x.2.1,
      x.2.2.map (fun e => (e.1, e.2.map (fun m => (m.1, m.2.map (fun window => sep.intercalate (window.filterMap (fun v =>
        match v with
        | some (.text t) => some t
        | _ => none)))))))))) := by
  have hj : ∀ window : List (Option Val), (∀ v, some v ∈ window → ∃ t, v = .text t) →
      joinWindow sep window = .ok (sep.intercalate (window.filterMap (fun v =>
        match v with
        | some (.text t) => some t
        | _ => none))) := by
    intro window hwin
    have : (window.filterMap (fun x => x)).mapM tokenText = .ok (window.filterMap (fun v =>
        match v with
        | some (.text t) => some t
        | _ => none)) := by
      induction window with
      | nil => rfl
      | cons v window ih =>
        have ih := ih (fun v hv => hwin v (by simp [hv]))
        cases v with
        | none => simpa using ih
        | some v =>
          obtain ⟨t, rfl⟩ := hwin v (by simp)
          rw [List.filterMap_cons, List.filterMap_cons, List.mapM_cons, ih]
          rfl
    rw [joinWindow, this]; rfl
  rw [concordances, h]
  show docs.mapM _ = _
  apply mapM_eq_map
  intro x hx
  show (x.2.2.mapM (joinField sep) >>= fun fs => _) = _
  rw [mapM_eq_map (joinField sep) (fun e => (e.1, e.2.map (fun m => (m.1, m.2.map (fun window =>
      sep.intercalate (window.filterMap (fun v =>
        match v with
        | some (.text t) => some t
        | _ => none))))))) x.2.2]
  · rfl
  · intro e he
    show (e.2.mapM (fun m => (m.2.mapM (joinWindow sep) >>= fun ss => pure (m.1, ss))) >>= fun ms => _) = _
    rw [mapM_eq_map (fun m : Val × List (List (Option Val)) => (m.2.mapM (joinWindow sep) >>= fun ss => pure (m.1, ss) : Except Err _))
      (fun m => (m.1, m.2.map (fun window =>
      sep.intercalate (window.filterMap (fun v =>
        match v with
        | some (.text t) => some t
        | _ => none))))) e.2]
    · rfl
    · intro m hm
      show (m.2.mapM (joinWindow sep) >>= fun ss => _) = _
      rw [mapM_eq_map (joinWindow sep) _ m.2 (fun window hwin => hj window (htext x hx e he m hm window hwin))]
      rfl

end

set_option synthInstance.maxSize 2000 in
set_option synthInstance.maxHeartbeats 200000 in
/-- Windows of size 1 around "a" (by key) in both documents, and a value that does not occur. -/
example : let docs := [["x", "a", "b", "a"], ["a", "x", "x", "b"]]
    (extractWindows (fun _ k => List.range k) (textCorpus docs) (textDb docs) {0, 1} [tok "a", tok "q"] 1 none).toOption =
      some [(.int 0, 0, [("text", [(.text "a", [[some (.text "x"), some (.text "a"), some (.text "b")],
        [some (.text "b"), some (.text "a")]])])]),
        (.int 1, 1, [("text", [(.text "a", [[some (.text "a"), some (.text "x")]])])])] ∧
    (concordances (fun _ k => List.range k) (textCorpus docs) (textDb docs) {1} [tok "b"] 2 none).toOption =
      some [(.int 1, 1, [("text", [(.text "b", ["x x b"])])])] ∧
    Sortable ((({0, 1} : Bitmap).elems).filterMap (fun d => (textCorpus docs).keys[d]?)) ∧
    Understood (textDb docs) [tok "a", tok "q"] :=
  ⟨by decide +kernel, by decide +kernel, Or.inl (by decide +kernel), by
    intro ref h
    simp only [List.mem_cons, List.not_mem_nil, or_false] at h
    rcases h with rfl | rfl <;> trivial⟩

/-! ## Collocations -/

section
variable {corpus : Corpus} {content : Val → Features} {db : DB}

/-- **C39 (part proved).** The full property reads: `count_collocations(field, features, w)` gives, for each other feature
of the field, how often it occurs within `w` of a query feature in the same document, and how often it occurs in
all; and gives nothing for other fields.  Proved, for query features of the field: the size of the query and the
totals are exact; the count near the query is that of the occurrences within `w` in the same document and of those at offset
0 with a query feature less than `w` from the end of the document before; the size of the window is that of the set of all such
offsets, plus one for every document with a query feature that near its end which is the last of its part; the query
features themselves are not listed; and if no other field has positions, only features of the field are listed.
Not true of the code: exactness of the count (`collocations_leak`) and the absence of features of other fields
(`collocations_mix_fields`). -/
theorem collocations_partial (h : Searchable corpus content db) (order : List Nat → List Nat) (ho : ∀ l, (order l).Perm l)
    (field : String) (features : List Nat) (hf : ∀ r ∈ db.features, r.fid ∈ features → r.field = field) (w : Nat) :
    ∃ counts q wn, countCollocations order db field features w = .ok (counts, q, wn) ∧
      (∃ Q : Finset (Nat × Nat), q = Q.card ∧ ∀ d o, (d, o) ∈ Q ↔ QueryAt corpus content db field features d o) ∧
      (∃ (W : Finset (Nat × Nat)) (E : Finset Nat), wn = W.card + E.card ∧
        (∀ d o, (d, o) ∈ W ↔ (∃ vs, HasTokens corpus content field d vs ∧ o < vs.length) ∧
          ((∃ o', QueryAt corpus content db field features d o' ∧ Close w o o') ∨
            LeakAt corpus content db field w (QueryAt corpus content db field features) d o)) ∧
        ∀ d, d ∈ E ↔ (∃ vs o', HasTokens corpus content field d vs ∧ QueryAt corpus content db field features d o' ∧
          vs.length ≤ o' + w) ∧ ∀ d', ¬ Follows db field d d') ∧
      (∀ r ∈ db.features, r.field = field → r.fid ∉ features → ∃ N A : Finset (Nat × Nat),
        (Dict.get? counts r.fid).getD (0, 0) = (N.card, A.card) ∧
        (∀ d o, (d, o) ∈ A ↔ TokenAt corpus content field d o r.value) ∧
        (∀ d o, (d, o) ∈ N ↔ TokenAt corpus content field d o r.value ∧
          ((∃ o', QueryAt corpus content db field features d o' ∧ Close w o o') ∨
            LeakAt corpus content db field w (QueryAt corpus content db field features) d o))) ∧
      (∀ f ∈ features, f ∉ counts.keys) ∧
      ((∀ k ∈ corpus.keys, ∀ fd vs, (fd, Values.seq vs) ∈ content k → vs ≠ [] → fd = field) →
        ∀ f ∈ counts.keys, ∃ r ∈ db.features, r.fid = f ∧ r.field = field) := by
  have hP := h.positions
  have hs := h.serves
  have hw := h.consistent
  have hqp : ∀ m ∈ partsOf db field, ∀ p, p ∈ unionPositions db m.firstDoc features ↔
      ∃ i d lo vs o, Tile corpus content m i d lo vs ∧ p = lo + o ∧ o < vs.length ∧
        QueryAt corpus content db field features d o := by
    intro m hm p
    obtain ⟨hm1, hm2⟩ := mem_partsOf.1 hm
    have := queryPositions_iff hP hw hs hm1 features (fun r hr hrf => (hf r hr hrf).trans hm2.symm) p
    rwa [hm2] at this
  have hin : ∀ m ∈ partsOf db field, ∀ p ∈ unionPositions db m.firstDoc features, Inside m.bounds p := by
    intro m hm p hp
    obtain ⟨i, d, lo, vs, o, t, rfl, ho, -⟩ := (hqp m hm p).1 hp
    exact t.inside ho
  have h0 : ∀ m ∈ partsOf db field, ∃ counts valid, countPartition db field m.firstDoc features w =
        .ok (counts, (unionPositions db m.firstDoc features).card, valid.card) ∧
      (∀ q, q ∈ valid ↔ ∃ p ∈ unionPositions db m.firstDoc features, Reach m.bounds w p q) ∧
      (∀ f, ((counts.filter (fun c => c.1 = f)).map (·.2.1)).sum =
          (if f ∈ features then 0 else (valid ∩ partitionPositions db m.firstDoc f).card) ∧
        ((counts.filter (fun c => c.1 = f)).map (·.2.2)).sum =
          (if f ∈ features then 0 else (partitionPositions db m.firstDoc f).card)) ∧
      ∀ c ∈ counts, c.1 ∉ features ∧ (∃ r ∈ db.posIndex, r.fid = c.1 ∧ r.firstDoc = m.firstDoc) ∧
        partitionPositions db m.firstDoc c.1 ≠ ∅ := by
    intro m hm
    have := countPartition_spec hP (mem_partsOf.1 hm).1 features w (hin m hm)
    rwa [(mem_partsOf.1 hm).2] at this
  choose! C V hCV using h0
  have hnear : ∀ m ∈ partsOf db field, ∀ {i d lo vs o}, Tile corpus content m i d lo vs → o < vs.length →
      (lo + o ∈ V m ↔ (∃ o', QueryAt corpus content db field features d o' ∧ Close w o o') ∨
        LeakAt corpus content db field w (QueryAt corpus content db field features) d o) := by
    intro m hm i d lo vs o t hlen
    have hmf := (mem_partsOf.1 hm).2
    constructor
    · intro hp1
      obtain ⟨x, hx, hreach⟩ := ((hCV m hm).2.1 _).1 hp1
      obtain ⟨i2, d2, lo2, vs2, o2, t2, rfl, ho2, hq⟩ := (hqp m hm x).1 hx
      rcases (reach_iff t2 ho2).1 hreach with ⟨o3, ho3, e, hclose⟩ | ⟨e, hle⟩
      · obtain ⟨rfl, rfl, rfl, rfl, rfl⟩ := tile_unique hP hs t t2 hlen ho3 e
        exact Or.inl ⟨o2, hq, hclose.2, hclose.1⟩
      · obtain ⟨h0, hlt⟩ := leak_tile (mem_partsOf.1 hm).1 t t2 hlen e
        have ht2 := t2.tokens
        rw [hmf] at ht2 hlt
        exact Or.inr ⟨h0, d2, o2, vs2, hlt, ht2, hq, ho2, hle⟩
    · rintro (⟨o', hq, hclose⟩ | ⟨rfl, d2, o2, vs2, ⟨m', hm', e, j, g1, g2⟩, ht2, hq, ho2, hle⟩)
      · have hlen' : o' < vs.length := by
          obtain ⟨r, -, -, -, vs', ht', hv'⟩ := hq
          have ht := t.tokens
          rw [hmf] at ht
          rw [hasTokens_unique hs ht ht']
          exact (List.getElem?_eq_some_iff.1 hv').1
        exact ((hCV m hm).2.1 _).2 ⟨lo + o', (hqp m hm _).2 ⟨i, d, lo, vs, o', t, rfl, hlen', hq⟩,
          (reach_iff t hlen').2 (Or.inl ⟨o, hlen, rfl, hclose.2, hclose.1⟩)⟩
      · have := partition_of_doc hP (mem_partsOf.1 hm).1 hm' (hmf.trans e.symm)
          (Bitmap.mem_elems.1 (List.mem_of_getElem? t.doc)) (Bitmap.mem_elems.1 (List.mem_of_getElem? g2))
        subst this
        obtain ⟨lo2, vs2', t2⟩ := tile_of_doc hP hm' g1
        have e2 : vs2' = vs2 := hasTokens_unique hs t2.tokens (by rw [e]; exact ht2)
        subst e2
        have hi : i = j + 1 := by
          obtain ⟨a1, b1⟩ := List.getElem?_eq_some_iff.1 t.doc
          obtain ⟨a2, b2⟩ := List.getElem?_eq_some_iff.1 g2
          exact (Bitmap.elems_nodup _).getElem_inj_iff.1 (b1.trans b2.symm)
        subst hi
        have e3 := t.atLo
        rw [t2.atHi] at e3
        refine ((hCV m hm).2.1 _).2 ⟨lo2 + o2, (hqp m hm _).2 ⟨j, d2, lo2, vs2', o2, t2, rfl, ho2, hq⟩,
          (reach_iff t2 ho2).2 (Or.inr ⟨?_, hle⟩)⟩
        rw [← Option.some.inj e3]; rfl
  -- by first document
  have hfirst : ∀ first ∈ fieldPartitions db field, ∃ m ∈ partsOf db field, m.firstDoc = first := by
    intro first hfi
    obtain ⟨m, h1, h2, h3⟩ := (mem_fieldPartitions field first).1 hfi
    exact ⟨m, mem_partsOf.2 ⟨h1, h2⟩, h3⟩
  haveI : Nonempty PosDocRow := ⟨⟨"", 0, 0, 0, ∅, ∅⟩⟩
  choose! F hF using hfirst
  have hFm : ∀ m ∈ partsOf db field, F m.firstDoc = m := by
    intro m hm
    obtain ⟨hm1, hm2⟩ := mem_partsOf.1 hm
    obtain ⟨g1, g2⟩ := hF m.firstDoc ((mem_fieldPartitions field _).2 ⟨m, hm1, hm2, rfl⟩)
    obtain ⟨g3, g4⟩ := mem_partsOf.1 g1
    exact partition_unique hP g3 hm1 (g4.trans hm2.symm) g2
  have hmap := mapM_eq_map (fun first => countPartition db field first features w)
    (fun first => (C (F first), (unionPositions db first features).card, (V (F first)).card)) (order (fieldPartitions db field))
    (by
      intro first hfi
      obtain ⟨g1, g2⟩ := hF first ((ho _).mem_iff.1 hfi)
      have := (hCV (F first) g1).1
      rw [g2] at this
      exact this)
  have hsum : ∀ g : Nat → Nat, ((order (fieldPartitions db field)).map g).sum =
      ((partsOf db field).map (fun m => g m.firstDoc)).sum := by
    intro g
    rw [((ho (fieldPartitions db field)).map g).sum_eq]
    rw [fieldPartitions, List.map_map]; rfl
  refine ⟨_, _, _, by rw [countCollocations]; show ((order (fieldPartitions db field)).mapM (fun first => countPartition db field first features w) >>= fun r => _) = _; rw [hmap]; rfl, ?_, ?_, ?_, ?_, ?_⟩
  · -- the query
    obtain ⟨A, hA1, hA2⟩ := card_parts hP field (fun m => unionPositions db m.firstDoc features) hin
    refine ⟨A, ?_, ?_⟩
    · rw [List.map_map]
      show ((order (fieldPartitions db field)).map (fun first => (unionPositions db first features).card)).sum = _
      rw [hsum, hA1]
    · intro d o
      rw [hA2]
      constructor
      · rintro ⟨m, hm, p, hp, e⟩
        obtain ⟨i, d', lo, vs, o', t, rfl, ho', hq⟩ := (hqp m hm p).1 hp
        rw [t.coord ho', Prod.mk.injEq] at e
        rw [e.1, e.2]; exact hq
      · intro hq
        have hq0 := hq
        obtain ⟨r, hr, hrf, -, vs, ht, hv⟩ := hq0
        have hlen := (List.getElem?_eq_some_iff.1 hv).1
        obtain ⟨m, hm, i, lo, t⟩ := tile_of_token hP hs ht hlen
        exact ⟨m, hm, lo + o, (hqp m hm _).2 ⟨i, d, lo, vs, o, t, rfl, hlen, hq⟩, (t.coord hlen).symm⟩
  · -- the window
    classical
    obtain ⟨A, hA1, hA2⟩ := card_parts hP field (fun m => (V m).filter (fun p => Inside m.bounds p))
      (fun m _ p hp => (Finset.mem_filter.1 hp).2)
    have hends : ∀ m ∈ partsOf db field, ∀ p ∈ (V m).filter (fun p => ¬ Inside m.bounds p), ∃ i d lo vs o,
        Tile corpus content m i d lo vs ∧ m.docs.elems[i + 1]? = none ∧ p = lo + vs.length ∧
        QueryAt corpus content db field features d o ∧ vs.length ≤ o + w := by
      intro m hm p hp
      obtain ⟨hp1, hp2⟩ := Finset.mem_filter.1 hp
      obtain ⟨x, hx, hreach⟩ := ((hCV m hm).2.1 _).1 hp1
      obtain ⟨i2, d2, lo2, vs2, o2, t2, rfl, ho2, hq⟩ := (hqp m hm x).1 hx
      rcases (reach_iff t2 ho2).1 hreach with ⟨o3, ho3, rfl, -⟩ | ⟨rfl, hle⟩
      · exact absurd (t2.inside ho3) hp2
      · refine ⟨i2, d2, lo2, vs2, o2, t2, ?_, rfl, hq, hle⟩
        cases hd : m.docs.elems[i2 + 1]? with
        | none => rfl
        | some d' =>
          obtain ⟨lo3, vs3, t3⟩ := tile_of_doc hP (mem_partsOf.1 hm).1 hd
          have e := t3.atLo
          rw [t2.atHi] at e
          have hpos : 0 < vs3.length := List.length_pos_of_ne_nil t3.nonempty
          have := t3.inside hpos
          rw [← Option.some.inj e] at this
          exact absurd this hp2
    obtain ⟨E, hE1, hE2⟩ := card_ends hP field (fun m => (V m).filter (fun p => ¬ Inside m.bounds p)) (by
      intro m hm p hp
      obtain ⟨i, d, lo, vs, o, t, he, hpe, -⟩ := hends m hm p hp
      exact ⟨i, d, lo, vs, t, he, hpe⟩)
    refine ⟨A, E, ?_, ?_, ?_⟩
    · rw [List.map_map]
      show ((order (fieldPartitions db field)).map (fun first => (V (F first)).card)).sum = _
      rw [hsum, ← hA1, ← hE1, ← List.sum_map_add]
      congr 1
      apply List.map_congr_left
      intro m hm
      rw [hFm m hm]
      exact (Finset.card_filter_add_card_filter_not _).symm
    · intro d o
      rw [hA2]
      constructor
      · rintro ⟨m, hm, p, hp, e⟩
        obtain ⟨hp1, hp2⟩ := Finset.mem_filter.1 hp
        obtain ⟨i, d', lo, vs, o', t, rfl, ho'⟩ := tile_of_inside hP (mem_partsOf.1 hm).1 hp2
        rw [t.coord ho', Prod.mk.injEq] at e
        obtain ⟨rfl, rfl⟩ := e
        have ht := t.tokens
        rw [(mem_partsOf.1 hm).2] at ht
        exact ⟨⟨vs, ht, ho'⟩, (hnear m hm t ho').1 hp1⟩
      · rintro ⟨⟨vs, ht, hlen⟩, hn⟩
        obtain ⟨m, hm, i, lo, t⟩ := tile_of_token hP hs ht hlen
        exact ⟨m, hm, lo + o, Finset.mem_filter.2 ⟨(hnear m hm t hlen).2 hn, t.inside hlen⟩, (t.coord hlen).symm⟩
    · intro d
      rw [hE2]
      constructor
      · rintro ⟨m, hm, p, hp, rfl⟩
        obtain ⟨i, d, lo, vs, o, t, he, -, hq, hle⟩ := hends m hm p hp
        rw [t.endDoc he]
        have ht := t.tokens
        rw [(mem_partsOf.1 hm).2] at ht
        refine ⟨⟨vs, o, ht, hq, hle⟩, ?_⟩
        rintro d' ⟨m', hm', e, i', g1, g2⟩
        have := partition_of_doc hP (mem_partsOf.1 hm).1 hm' ((mem_partsOf.1 hm).2.trans e.symm)
          (Bitmap.mem_elems.1 (List.mem_of_getElem? t.doc)) (Bitmap.mem_elems.1 (List.mem_of_getElem? g1))
        subst this
        have hi : i = i' := by
          obtain ⟨a1, b1⟩ := List.getElem?_eq_some_iff.1 t.doc
          obtain ⟨a2, b2⟩ := List.getElem?_eq_some_iff.1 g1
          exact (Bitmap.elems_nodup _).getElem_inj_iff.1 (b1.trans b2.symm)
        subst hi
        rw [he] at g2
        cases g2
      · rintro ⟨⟨vs, o, ht, hq, hle⟩, hlast⟩
        have hlen : o < vs.length := by
          obtain ⟨r, -, -, -, vs', ht', hv'⟩ := hq
          rw [hasTokens_unique hs ht ht']
          exact (List.getElem?_eq_some_iff.1 hv').1
        obtain ⟨m, hm, i, lo, t⟩ := tile_of_token hP hs ht hlen
        have he : m.docs.elems[i + 1]? = none := by
          cases hd : m.docs.elems[i + 1]? with
          | none => rfl
          | some d' => exact absurd ⟨m, (mem_partsOf.1 hm).1, (mem_partsOf.1 hm).2, i, t.doc, hd⟩ (hlast d')
        refine ⟨m, hm, lo + vs.length, Finset.mem_filter.2 ⟨((hCV m hm).2.1 _).2 ⟨lo + o, (hqp m hm _).2
          ⟨i, d, lo, vs, o, t, rfl, hlen, hq⟩, (reach_iff t hlen).2 (Or.inr ⟨rfl, hle⟩)⟩, ?_⟩, (t.endDoc he).symm⟩
        rintro ⟨-, b, hb, hlt⟩
        obtain ⟨j, hj⟩ := List.getElem?_of_mem (Bitmap.mem_elems.2 hb)
        obtain ⟨a1, b1⟩ := List.getElem?_eq_some_iff.1 hj
        obtain ⟨a2, b2⟩ := List.getElem?_eq_some_iff.1 t.atHi
        have hlb := (hP.tiles m (mem_partsOf.1 hm).1).1
        have h1 := List.getElem?_eq_none_iff.1 he
        rcases Nat.lt_or_ge j (i + 1) with hji | hji
        · have := List.pairwise_iff_getElem.1 (Bitmap.elems_pairwise m.bounds) j (i + 1) a1 a2 hji
          omega
        · have : j = i + 1 := by omega
          subst this
          omega
  · -- the counts
    intro r hr hrf hnot
    have hpp : ∀ m ∈ partsOf db field, ∀ p, p ∈ partitionPositions db m.firstDoc r.fid ↔
        ∃ i d lo vs o, Tile corpus content m i d lo vs ∧ p = lo + o ∧ vs[o]? = some (some r.value) := by
      intro m hm p
      exact partitionPositions_iff hP hw hs (mem_partsOf.1 hm).1 hr (hrf.trans (mem_partsOf.1 hm).2.symm) p
    have hpin : ∀ m ∈ partsOf db field, ∀ p ∈ partitionPositions db m.firstDoc r.fid, Inside m.bounds p := by
      intro m hm p hp
      obtain ⟨i, d, lo, vs, o, t, rfl, hv⟩ := (hpp m hm p).1 hp
      exact t.inside (List.getElem?_eq_some_iff.1 hv).1
    obtain ⟨A, hA1, hA2⟩ := card_parts hP field (fun m => partitionPositions db m.firstDoc r.fid) hpin
    obtain ⟨N, hN1, hN2⟩ := card_parts hP field (fun m => V m ∩ partitionPositions db m.firstDoc r.fid)
      (fun m hm p hp => hpin m hm p (Finset.mem_inter.1 hp).2)
    refine ⟨N, A, ?_, ?_, ?_⟩
    · rw [get?_foldl_addCounts]
      simp only [Dict.get?_nil, Option.getD_none, Nat.zero_add, List.map_map]
      rw [Prod.mk.injEq]
      constructor
      · show ((order (fieldPartitions db field)).map (fun first => (((C (F first)).filter (fun c => c.1 = r.fid)).map (·.2.1)).sum)).sum = _
        rw [hsum, ← hN1]
        congr 1
        apply List.map_congr_left
        intro m hm
        rw [hFm m hm, ((hCV m hm).2.2.1 r.fid).1, if_neg hnot]
      · show ((order (fieldPartitions db field)).map (fun first => (((C (F first)).filter (fun c => c.1 = r.fid)).map (·.2.2)).sum)).sum = _
        rw [hsum, ← hA1]
        congr 1
        apply List.map_congr_left
        intro m hm
        rw [hFm m hm, ((hCV m hm).2.2.1 r.fid).2, if_neg hnot]
    · intro d o
      rw [hA2]
      constructor
      · rintro ⟨m, hm, p, hp, e⟩
        obtain ⟨i, d', lo, vs, o', t, rfl, hv⟩ := (hpp m hm p).1 hp
        rw [t.coord (List.getElem?_eq_some_iff.1 hv).1, Prod.mk.injEq] at e
        have ht := t.tokens
        rw [(mem_partsOf.1 hm).2] at ht
        rw [e.1, e.2]; exact ⟨vs, ht, hv⟩
      · rintro ⟨vs, ht, hv⟩
        have hlen := (List.getElem?_eq_some_iff.1 hv).1
        obtain ⟨m, hm, i, lo, t⟩ := tile_of_token hP hs ht hlen
        exact ⟨m, hm, lo + o, (hpp m hm _).2 ⟨i, d, lo, vs, o, t, rfl, hv⟩, (t.coord hlen).symm⟩
    · intro d o
      rw [hN2]
      constructor
      · rintro ⟨m, hm, p, hp, e⟩
        obtain ⟨hp1, hp2⟩ := Finset.mem_inter.1 hp
        obtain ⟨i, d', lo, vs, o', t, rfl, hv⟩ := (hpp m hm p).1 hp2
        have hlen := (List.getElem?_eq_some_iff.1 hv).1
        rw [t.coord hlen, Prod.mk.injEq] at e
        obtain ⟨rfl, rfl⟩ := e
        have ht := t.tokens
        rw [(mem_partsOf.1 hm).2] at ht
        exact ⟨⟨vs, ht, hv⟩, (hnear m hm t hlen).1 hp1⟩
      · rintro ⟨⟨vs, ht, hv⟩, hn⟩
        have hlen := (List.getElem?_eq_some_iff.1 hv).1
        obtain ⟨m, hm, i, lo, t⟩ := tile_of_token hP hs ht hlen
        exact ⟨m, hm, lo + o, Finset.mem_inter.2 ⟨(hnear m hm t hlen).2 hn, (hpp m hm _).2 ⟨i, d, lo, vs, o, t, rfl, hv⟩⟩,
          (t.coord hlen).symm⟩
  · intro f hff hk
    rw [keys_foldl_addCounts] at hk
    rcases hk with hk | ⟨r, hr, c, hc, rfl⟩
    · simp [Dict.keys] at hk
    · obtain ⟨first, hfi, rfl⟩ := List.mem_map.1 hr
      obtain ⟨g1, -⟩ := hF first ((ho _).mem_iff.1 hfi)
      exact ((hCV _ g1).2.2.2 c hc).1 hff
  · intro honly f hk
    rw [keys_foldl_addCounts] at hk
    rcases hk with hk | ⟨r, hr, c, hc, rfl⟩
    · simp [Dict.keys] at hk
    · obtain ⟨first, hfi, rfl⟩ := List.mem_map.1 hr
      obtain ⟨g1, -⟩ := hF first ((ho _).mem_iff.1 hfi)
      obtain ⟨-, ⟨row, hrow, e1, e2⟩, hne⟩ := (hCV _ g1).2.2.2 c hc
      obtain ⟨ft, hft, e3, -, m', hm', e4, e5, hpos⟩ := hP.decode row hrow
      have hrowp : partitionPositions db (F first).firstDoc c.1 = row.positions := by
        rw [partitionPositions, nodup_find (fun r : PosRow => (r.fid, r.firstDoc)) db.posIndex hP.rows hrow]
        intro x; simp [e1, e2]
      rw [hrowp] at hne
      obtain ⟨p, hp⟩ := Finset.nonempty_iff_ne_empty.2 hne
      obtain ⟨i, d, lo, o, -, -, -, k, vs, hk1, hk2, hv⟩ := (hpos p).1 hp
      refine ⟨ft, hft, e3.trans e1, honly k (List.mem_of_getElem? hk1) ft.field vs hk2 ?_⟩
      rintro rfl; simp at hv

end

/-- In "x a b a", with a window of 1: "a" (id 2) occurs twice, "b" once and near it; "x" once and near it. -/
example : let docs := [["x", "a", "b", "a"], ["y"]]
    Searchable (textCorpus docs) (texts docs) (textDb docs) ∧
    (∀ r ∈ (textDb docs).features, r.fid ∈ [2] → r.field = "text") ∧
    (countCollocations List.reverse (textDb docs) "text" [2] 1).toOption.map (fun x => (x.1, x.2.1)) =
      some ([(4, 1, 1), (3, 1, 1), (1, 1, 1)], 2) :=
  ⟨textDb_searchable _ (by decide), by decide +kernel, by decide +kernel⟩

/-- **C39, refutation: documents are not separated.** "b" (id 3) is counted near "a" (id 2), though it is alone in its
document. -/
theorem collocations_leak :
    (countCollocations id (textDb [["x", "a"], ["b"]]) "text" [2] 1).toOption = some ([(3, 1, 1), (1, 1, 1)], 1, 3) := by
  decide +kernel

/-- **C39, refutation: the window can be larger than the corpus.** The only document has two tokens, the window is said to have
three positions. -/
theorem collocations_window_overrun :
    (countCollocations id (textDb [["x", "a"]]) "text" [2] 1).toOption = some ([(1, 1, 1)], 1, 3) := by
  decide +kernel

/-- One document with two sequence fields. -/
def twoContent : Val → Features
  | .int 0 => [("text", .seq [some (.text "a"), some (.text "b")]), ("title", .seq [some (.text "z")])]
  | _ => []

/-- **C39, refutation: fields are mixed.** The collocations of "a" in the field "text" list the feature 3, the "z" of the
field "title", as occurring near it. -/
theorem collocations_mix_fields :
    let corpus : Corpus := { keys := [.int 0], docs := fun ks => .ok (ks.map twoContent) }
    let db := (indexCall corpus { size := 10, workers := 2, positions := true } demoSchedule (Conn.fresh {})).1.committed
    (countCollocations id db "text" [1] 1).toOption = some ([(3, 1, 1), (2, 1, 1)], 1, 2) ∧
    db.features.map (fun r => (r.fid, r.field, r.value)) = [(1, "text", .text "a"), (2, "text", .text "b"), (3, "title", .text "z")] := by
  decide +kernel

/-! ## Rendering passages -/

section
variable {corpus : Corpus} {content : Val → Features} {db : DB}

/-- **C40 (part proved).** The full property reads: `render_passages_table` yields for every scored passage its tokens from
start to end inclusive, with `overhang` more on both sides.  Proved: it yields one row for every scored document
(any batch size ≥ 1, any order of the workers), with the text of every passage under its field, in order, the set fields
of the document, and nothing else; the text consists of the tokens from `overhang` before the start up to, but not
including, `overhang` after the end (`Spec.shown`).  Hence the passage is complete when `overhang ≥ 1`
(`shown_complete`).  Not true of the code: without overhang the last token is missing, and the right-hand side is
always one short (`passage_last_token_missing`). -/
theorem render_partial (hs : Serves corpus content) (hI : IsIndexOf corpus content db)
    (keep : Nat → List Nat → List Nat)
    (order : List (Dict Nat (List Passage)) → List (Dict Nat (List Passage))) (ho : ∀ l, (order l).Perm l)
    (scored : Dict Nat (List Passage)) (hr : Renderable corpus content scored) (overhang batchSize : Nat) (hb : 0 < batchSize) :
    ∃ rows, renderPassages keep order corpus db scored overhang batchSize none = .ok rows ∧
      (rows.map (·.1)).Perm scored.keys ∧ ∀ row ∈ rows, Renders corpus content overhang scored row := by
  have hflat := chunks_flatten batchSize hb scored.length scored le_rfl
  have hsub : ∀ b ∈ chunks batchSize scored.length scored, b.Sublist scored := fun b hb => mem_chunks hb
  have hn : ∀ b ∈ chunks batchSize scored.length scored, (Dict.keys b).Nodup := by
    intro b hb
    exact List.Nodup.sublist ((hsub b hb).map _) hr.once
  have hex : ∀ b ∈ order (chunks batchSize scored.length scored), ∃ rows, constructPassages corpus db b overhang = .ok rows ∧
      (rows.map (·.1)).Perm (Dict.keys b) ∧ ∀ row ∈ rows, Renders corpus content overhang b row := by
    intro b hbm
    have hbm := (ho _).mem_iff.1 hbm
    exact constructPassages_ok hs hI overhang b (renderable_sub hr (hn b hbm) (fun e he => (hsub b hbm).subset he))
  choose! R hR using hex
  refine ⟨((order (chunks batchSize scored.length scored)).map R).flatten, ?_, ?_, ?_⟩
  · rw [renderPassages]
    show ((order (chunks batchSize scored.length scored)).mapM (fun b => constructPassages corpus db b overhang) >>= fun r => _) = _
    rw [mapM_eq_map _ R _ (fun b hb => (hR b hb).1)]
    rfl
  · have h1 : ∀ l : List (Dict Nat (List Passage)), (∀ b ∈ l, b ∈ order (chunks batchSize scored.length scored)) →
        ((l.map R).flatten.map (·.1)).Perm (Dict.keys l.flatten) := by
      intro l
      induction l with
      | nil => intro _; exact List.Perm.refl _
      | cons b l ih =>
        intro hl
        rw [List.map_cons, List.flatten_cons, List.map_append, List.flatten_cons, Dict.keys, List.map_append]
        exact ((hR b (hl b (by simp))).2.1).append (ih (fun x hx => hl x (by simp [hx])))
    refine (h1 _ (fun b h => h)).trans ?_
    have := ((ho (chunks batchSize scored.length scored)).flatten).map (fun e : Nat × List Passage => e.1)
    rw [hflat] at this
    exact this
  · intro row hrow
    obtain ⟨rows, hrows, hrow⟩ := List.mem_flatten.1 hrow
    obtain ⟨b, hbm, rfl⟩ := List.mem_map.1 hrows
    obtain ⟨h1, h2, h3⟩ := hR b hbm
    have hbc := (ho _).mem_iff.1 hbm
    refine renders_of_eq (h3 row hrow) ?_
    have hk : row.1 ∈ Dict.keys b := h2.mem_iff.1 (List.mem_map.2 ⟨row, hrow, rfl⟩)
    obtain ⟨v, hv⟩ := (Dict.get?_isSome _ _).2 hk
    rw [hv]
    exact (Dict.get?_of_mem hr.once ((hsub b hbc).subset (Dict.mem_of_get? hv))).symm

/-- With an overhang of at least one, every token of the passage is shown. -/
theorem shown_complete (overhang : Nat) (h : 1 ≤ overhang) (ts : List String) (p : Passage) (j : Nat) (t : String)
    (h1 : p.start ≤ j) (h2 : j ≤ p.stop) (h3 : ts[j]? = some t) : t ∈ shown overhang ts p := by
  rw [shown, List.mem_filterMap]
  refine ⟨j, ?_, h3⟩
  rw [List.mem_filter, List.mem_range]
  exact ⟨(List.getElem?_eq_some_iff.1 h3).1, by simp; omega⟩

/-- With a sample, the rows are those of the documents kept, which are among the scored ones. -/
theorem render_sample (hs : Serves corpus content) (hI : IsIndexOf corpus content db)
    (keep : Nat → List Nat → List Nat) (k : Nat)
    (order : List (Dict Nat (List Passage)) → List (Dict Nat (List Passage))) (ho : ∀ l, (order l).Perm l)
    (scored : Dict Nat (List Passage)) (hr : Renderable corpus content scored) (overhang batchSize : Nat) (hb : 0 < batchSize)
    (hkeep : (keep k scored.keys).Nodup ∧ (∀ d ∈ keep k scored.keys, d ∈ scored.keys) ∧
      (keep k scored.keys).length = min k scored.length) :
    ∃ rows, renderPassages keep order corpus db scored overhang batchSize (some k) = .ok rows ∧
      rows.length = min k scored.length ∧ (rows.map (·.1)).Perm (keep k scored.keys) ∧
      ∀ row ∈ rows, Renders corpus content overhang scored row := by
  obtain ⟨k1, k2, k3⟩ := hkeep
  have hkeys : ∀ l : List Nat, (∀ d ∈ l, d ∈ scored.keys) →
      Dict.keys (l.filterMap (fun d => (Dict.get? scored d).map (fun ps => (d, ps)))) = l := by
    intro l
    induction l with
    | nil => intro _; rfl
    | cons d l ih =>
      intro h
      obtain ⟨v, hv⟩ := (Dict.get?_isSome _ _).2 (h d (by simp))
      rw [List.filterMap_cons, hv]
      show d :: Dict.keys _ = _
      rw [ih (fun x hx => h x (by simp [hx]))]
  set sub := samplePassages keep scored (some k) with hsub
  have hsk : sub.keys = keep k scored.keys := hkeys _ k2
  have hmem : ∀ e ∈ sub, e ∈ scored := by
    intro e he
    obtain ⟨d, -, h2⟩ := List.mem_filterMap.1 he
    cases hg : Dict.get? scored d with
    | none => rw [hg] at h2; cases h2
    | some v =>
      rw [hg] at h2
      cases h2
      exact Dict.mem_of_get? hg
  have hr' : Renderable corpus content sub := renderable_sub hr (by rw [hsk]; exact k1) hmem
  obtain ⟨rows, h1, h2, h3⟩ := render_partial hs hI keep order ho sub hr' overhang batchSize hb
  refine ⟨rows, h1, ?_, by rw [← hsk]; exact h2, ?_⟩
  · rw [← k3, ← hsk, ← h2.length_eq, List.length_map]
  · intro row hrow
    refine renders_of_eq (h3 row hrow) ?_
    have hk : row.1 ∈ Dict.keys sub := h2.mem_iff.1 (List.mem_map.2 ⟨row, hrow, rfl⟩)
    obtain ⟨v, hv⟩ := (Dict.get?_isSome _ _).2 hk
    rw [hv]
    exact (Dict.get?_of_mem hr.once (hmem _ (Dict.mem_of_get? hv))).symm

end

set_option synthInstance.maxSize 2000 in
/-- Two passages of a document and one of another, in batches of one. -/
example : let docs := [["a", "b", "c", "d", "e"], ["x", "y", "z"]]
    Renderable (textCorpus docs) (texts docs) [(1, [⟨"text", 1, 1, 1⟩]), (0, [⟨"text", 0, 1, 2⟩, ⟨"text", 4, 4, 1⟩])] ∧
    (renderPassages (fun _ l => l) List.reverse (textCorpus docs) (textDb docs)
      [(1, [⟨"text", 1, 1, 1⟩]), (0, [⟨"text", 0, 1, 2⟩, ⟨"text", 4, 4, 1⟩])] 1 1).toOption =
      some [(0, .int 0, [("text", .passages ["a b", "d e"])]), (1, .int 1, [("text", .passages ["x y"])])] := by
  refine ⟨⟨by decide, by decide, ?_, Or.inl (by decide)⟩, by decide +kernel⟩
  intro e he p hp
  simp only [List.mem_cons, List.not_mem_nil, or_false] at he
  rcases he with rfl | rfl
  · simp only [List.mem_cons, List.not_mem_nil, or_false] at hp
    subst hp
    exact ⟨["x", "y", "z"], .int 1, by decide, by decide⟩
  · simp only [List.mem_cons, List.not_mem_nil, or_false] at hp
    rcases hp with rfl | rfl
    · exact ⟨["a", "b", "c", "d", "e"], .int 0, by decide, by decide⟩
    · exact ⟨["a", "b", "c", "d", "e"], .int 0, by decide, by decide⟩

set_option synthInstance.maxSize 2000 in
/-- **C40, refutation.** Without overhang the passage "b c" of "a b c d e" is rendered as "b"; with an overhang of 1 it is
"a b c" instead of "a b c d". -/
theorem passage_last_token_missing : let docs := [["a", "b", "c", "d", "e"]]
    (renderPassages (fun _ l => l) id (textCorpus docs) (textDb docs) [(0, [⟨"text", 1, 2, 2⟩])] 0).toOption =
      some [(0, .int 0, [("text", .passages ["b"])])] ∧
    (renderPassages (fun _ l => l) id (textCorpus docs) (textDb docs) [(0, [⟨"text", 1, 2, 2⟩])] 1).toOption =
      some [(0, .int 0, [("text", .passages ["a b c"])])] :=
  ⟨by decide +kernel, by decide +kernel⟩

end Hyperreal.Props
