import Verif.Model.Pipeline
import Verif.Spec.Pipeline
import Verif.Props.Cli
import Verif.Props.Csv
import Verif.Props.Migrate
import Verif.Props.Export

/-!
# A whole run of the command line (C65)
-/

namespace Hyperreal.Props
open Atomic Spec Cli Migrate

/-! ## Opening -/

/-- What opening a usable file gives. -/
theorem usable_opens (f : File) (h : Usable f) :
    ∃ b, (openIndex Faults.none f).2 = .ok b ∧ (openIndex Faults.none f).1.close = opened Faults.none f ∧
      (opened Faults.none f).data = f.data ∧ Settled f.data ∧ (opened Faults.none f).version = 10 ∧
      (opened Faults.none f).applicationId = 715973853 ∧ Usable (opened Faults.none f) := by
  rcases h with ⟨h1, h2, h3⟩ | ⟨h1, h2⟩
  · obtain ⟨a, b, c, d, e⟩ := open_creates f h1 h2 h3
    have hset : Settled f.data := by
      rw [h3]
      exact ⟨⟨by simp, by simp, by simp, by simp, by simp, by simp, by simp⟩, by simp, rfl⟩
    exact ⟨false, a, rfl, d.trans h3.symm, hset, c.version, c.applicationId, .inr ⟨c, by rw [d, ← h3]; exact hset⟩⟩
  · obtain ⟨a, b, c⟩ := open_current f h1.version
    refine ⟨false, a, rfl, by rw [c]; rfl, h2, by rw [c]; exact h1.version, by rw [c]; exact h1.applicationId, ?_⟩
    rw [c]
    exact .inr ⟨⟨h1.version, h1.applicationId, h1.tables, h1.objects, h1.obsolete, h1.window⟩, h2⟩

theorem onIndex_usable {α : Type} (f : File) (h : Usable f) (work : Conn DB → Conn DB × Except Err α) :
    Pipeline.onIndex f work =
      ({ opened Faults.none f with data := (work (Conn.fresh f.data)).1.close }, (work (Conn.fresh f.data)).2) := by
  obtain ⟨b, h1, h2, h3, -⟩ := usable_opens f h
  unfold Pipeline.onIndex
  cases hx : openIndex Faults.none f with
  | mk c r =>
    rw [hx] at h1 h2
    dsimp only at h1 h2
    subst h1
    dsimp only
    rw [h2, h3]

/-- A file with other data is usable when the data is. -/
theorem usable_with (f : File) (h : Usable f) (d : DB) (hd : Settled d) :
    Usable { opened Faults.none f with data := d } := by
  obtain ⟨b, -, -, -, -, hv, -, h7⟩ := usable_opens f h
  rcases h7 with ⟨e, -⟩ | ⟨⟨a1, a2, a3, a4, a5, a6⟩, -⟩
  · rw [e] at hv; cases hv
  · exact .inr ⟨⟨a1, a2, a3, a4, a5, a6⟩, hd⟩

/-! ## The corpus of a text file -/

theorem numbered_keys (docs : List String) : ((numbered docs).map (·.1)).Nodup := by
  have : (numbered docs).map (·.1) = (List.range docs.length).map (· + 1) := by
    apply List.ext_getElem?
    intro i
    simp only [numbered, List.map_map, List.getElem?_map, List.getElem?_zipIdx, List.getElem?_range]
    by_cases h : i < docs.length <;> simp [h]
  rw [this]
  exact List.nodup_range.map (fun a b h => by simpa using h)

theorem numbered_get (docs : List String) (i : Nat) : (numbered docs)[i]? = (docs[i]?).map (fun t => (i + 1, t)) := by
  simp [numbered, List.getElem?_zipIdx]
  rfl

/-- Which values occur in which documents of the corpus. -/
theorem plain_occurs (tokens : String → List String) (docs : List String) (field : String) (v : Val) (d : Nat) :
    Occurs (PlainText.corpus tokens (numbered docs)) (plainContent tokens (numbered docs)) field v d ↔
      field = "text" ∧ ∃ x t, docs[d]? = some x ∧ v = .text t ∧ t ∈ tokens x := by
  have hkey : (PlainText.corpus tokens (numbered docs)).keys[d]? = (docs[d]?).map (fun _ => Val.int ((d + 1 : Nat) : Int)) := by
    simp only [PlainText.corpus, List.getElem?_map, numbered_get, Option.map_map]
    rfl
  have hcontent : ∀ x, docs[d]? = some x → plainContent tokens (numbered docs) (Val.int ((d + 1 : Nat) : Int)) =
      PlainText.features tokens x := by
    intro x hx
    have hmem : (d + 1, x) ∈ numbered docs := List.mem_of_getElem? (i := d) (by rw [numbered_get, hx]; rfl)
    have := PlainText.docOf_unique _ (numbered_keys docs) _ hmem
    show (match PlainText.indexed tokens (some (numbered docs)) (Val.int ((d + 1 : Nat) : Int)) with
      | .ok f => f | .error _ => []) = _
    have e : PlainText.indexed tokens (some (numbered docs)) (Val.int ((d + 1 : Nat) : Int)) =
        .ok (PlainText.features tokens x) := by
      show (match PlainText.docOf (some (numbered docs)) (d + 1) with
        | .error e => Except.error e | .ok t => Except.ok (PlainText.features tokens t)) = _
      rw [this]
    rw [e]
  constructor
  · rintro ⟨k, vs, h1, h2, h3⟩
    rw [hkey] at h1
    cases hx : docs[d]? with
    | none => rw [hx] at h1; cases h1
    | some x =>
      rw [hx] at h1
      simp only [Option.map_some, Option.some.injEq] at h1
      rw [← h1, hcontent x hx, PlainText.features, List.mem_singleton, Prod.mk.injEq] at h2
      obtain ⟨rfl, rfl⟩ := h2
      simp only [Values.items, List.mem_map, Option.some.injEq] at h3
      obtain ⟨t, ht, rfl⟩ := h3
      exact ⟨rfl, x, t, rfl, rfl, ht⟩
  · rintro ⟨rfl, x, t, hx, rfl, ht⟩
    refine ⟨Val.int ((d + 1 : Nat) : Int), .seq ((tokens x).map (fun t => some (Val.text t))), ?_, ?_, ?_⟩
    · rw [hkey, hx]; rfl
    · rw [hcontent x hx]; simp [PlainText.features]
    · simpa [Values.items] using ht

/-- The number of documents with a token, as the size of the set of their numbers. -/
theorem card_documentsWith (tokens : String → List String) (docs : List String) (t : String) (D : Finset Nat)
    (hD : ∀ d, d ∈ D ↔ ∃ x, docs[d]? = some x ∧ t ∈ tokens x) : D.card = documentsWith tokens docs t := by
  have : D = (Finset.range docs.length).filter (fun d => t ∈ tokens (docs.getD d "")) := by
    ext d
    rw [hD, Finset.mem_filter, Finset.mem_range]
    constructor
    · rintro ⟨x, h1, h2⟩
      refine ⟨(List.getElem?_eq_some_iff.1 h1).1, ?_⟩
      rw [List.getD_eq_getElem?_getD, h1]; exact h2
    · rintro ⟨h1, h2⟩
      rw [List.getD_eq_getElem?_getD, List.getElem?_eq_getElem h1] at h2
      exact ⟨docs[d], List.getElem?_eq_getElem h1, h2⟩
  rw [this, documentsWith]
  clear this hD
  induction docs using List.reverseRecOn with
  | nil => simp
  | append_singleton l a ih =>
    rw [List.length_append, List.length_singleton, Finset.range_add_one, Finset.filter_insert, List.countP_append]
    have e : (Finset.range l.length).filter (fun d => t ∈ tokens ((l ++ [a]).getD d "")) =
        (Finset.range l.length).filter (fun d => t ∈ tokens (l.getD d "")) := by
      apply Finset.filter_congr
      intro d hd
      rw [Finset.mem_range] at hd
      rw [List.getD_eq_getElem?_getD, List.getElem?_append_left hd, ← List.getD_eq_getElem?_getD]
    rw [e]
    have ha : (l ++ [a]).getD l.length "" = a := by simp
    rw [ha]
    by_cases h : t ∈ tokens a
    · rw [if_pos h, Finset.card_insert_of_notMem (by simp), ih]
      simp [h]
    · rw [if_neg h, ih]
      simp [h]

/-! ## Indexing -/

/-- The index command on the corpus made of `docs`: it succeeds, and the tables of the file describe the documents. -/
theorem index_plain_command (tokens : String → List String) (docs : List String) (hne : docs ≠ []) (cfg : IndexCfg) (s : Schedule)
    (hf : Fair s) (hno : ∀ i, s.fault i = none) (f : File) (hu : Usable f) :
    ∃ new, Pipeline.indexPlain tokens cfg s (some (numbered docs)) f = ({ opened Faults.none f with data := new }, .ok ()) ∧
      Settled new ∧ (∀ r ∈ new.features, ∀ d, d ∈ r.docs ↔ r.field = "text" ∧ ∃ x t, docs[d]? = some x ∧ r.value = .text t ∧ t ∈ tokens x) ∧
      (∀ t, 0 < documentsWith tokens docs t → ∃ r ∈ new.features, r.field = "text" ∧ r.value = .text t) ∧
      (∀ d k, (d, k) ∈ new.docKeys ↔ ∃ x, docs[d]? = some x ∧ k = .int ((d + 1 : Nat) : Int)) ∧
      (new.fieldSummary.map (·.field)).Nodup ∧ (∀ r ∈ new.features, r.field ∈ new.fieldSummary.map (·.field)) ∧
      (f.data.clusters = [] → new.clusters = []) := by
  obtain ⟨b, -, -, -, hset, -⟩ := usable_opens f hu
  obtain ⟨hs, hi⟩ := plain_text_serves tokens (numbered docs) (numbered_keys docs)
  have hrows : numbered docs ≠ [] := by
    intro h
    apply hne
    have := congrArg List.length h
    simpa [numbered] using this
  have hidle : Idle (Conn.fresh f.data) f.data := fresh_idle _
  have hok := plain_text_indexes tokens (numbered docs) (numbered_keys docs) hrows cfg s hf hno (Conn.fresh f.data) f.data hidle hset
  have hp : Pending f.data := ⟨hset.toWellformed, fun k hk _ => hset.summaries k hk, by rw [hset.nothingPending]; simp⟩
  obtain ⟨-, -, -, new, h1, h2, ⟨h3, h4, h5, -, -, h8⟩, h9, -⟩ := index_success hidle hp hs hf hok
  have hI := reindexed_isIndex (cfg := cfg) (s := s) hs (hi _) hf hset.toWellformed
  obtain ⟨a1, a2, -⟩ := reindexed_summary (cfg := cfg) (s := s) hs (hi _) hf hset.toWellformed
  refine ⟨new, ?_, h2, ?_, ?_, ?_, by rw [h8]; exact a2, ?_, ?_⟩
  · unfold Pipeline.indexPlain
    rw [onIndex_usable f hu]
    dsimp only
    rw [hok]
    congr 2
    exact h1.committed
  · intro r hr d
    rw [h3] at hr
    rw [(reindexed_row hs (hi _) hf hset.toWellformed hr).2 d, plain_occurs]
  · intro t ht
    rw [documentsWith, List.countP_pos_iff] at ht
    obtain ⟨x, hx, hxt⟩ := ht
    obtain ⟨d, hd⟩ := List.getElem?_of_mem hx
    have := (hI.lookup "text" (.text t) d).2 ((plain_occurs tokens docs _ _ d).2 ⟨rfl, x, t, hd, rfl, by simpa using hxt⟩)
    rw [DB.docsOfKey] at this
    split at this
    · rename_i r hr
      have h := List.find?_some hr
      simp only [decide_eq_true_eq] at h
      exact ⟨r, by rw [h3]; exact List.mem_of_find?_eq_some hr, h⟩
    · simp at this
  · intro d k
    rw [h5, hI.docKeys]
    simp only [PlainText.corpus, List.getElem?_map, numbered_get, Option.map_map, Option.map_eq_some_iff]
    constructor
    · rintro ⟨x, h, rfl⟩; exact ⟨x, h, rfl⟩
    · rintro ⟨x, h, rfl⟩; exact ⟨x, h, rfl⟩
  · intro r hr
    rw [h3] at hr
    obtain ⟨row, hrow, e⟩ := (a1 r.field).2 ⟨r, hr, rfl⟩
    rw [h8]
    exact List.mem_map.2 ⟨row, hrow, e⟩
  · intro hc
    rw [List.eq_nil_iff_forall_not_mem]
    intro k hk
    obtain ⟨k', hk', -⟩ := h9 k hk
    rw [hc] at hk'
    cases hk'

/-! ## The whole run -/

/-- A limit for the reader that is large enough. -/
theorem cells_fit (db : DB) : ∃ L, ∀ limit, L ≤ limit → CellsFit limit db := by
  refine ⟨10 + (db.features.map (fun r => ((spreadsheetRow ((assign db r.fid).getD 0) r).map String.length).sum)).sum,
    fun limit hl => ⟨by omega, fun r hr c hc s hs => ?_⟩⟩
  have h1 : s.length ≤ ((spreadsheetRow ((assign db r.fid).getD 0) r).map String.length).sum := by
    rw [hc]
    exact List.le_sum_of_mem (List.mem_map.2 ⟨s, hs, rfl⟩)
  have h2 := List.le_sum_of_mem (List.mem_map.2 ⟨r, hr, rfl⟩ :
    ((spreadsheetRow ((assign db r.fid).getD 0) r).map String.length).sum ∈
      db.features.map (fun r => ((spreadsheetRow ((assign db r.fid).getD 0) r).map String.length).sum))
  omega

/-- The index file after the first three commands. -/
theorem text_file_modelled (space : Char → Bool) (limit : Nat) (ls : List Line) (hls : ∀ l ∈ ls, l.Ok limit)
    (file : List Char) (hfile : file = ls.flatMap Line.render ∨ file ++ ['\n'] = ls.flatMap Line.render)
    (hne : documents space ls ≠ []) (old : PlainText.Db) (f : File) (hu : Usable f)
    (tokens : String → List String) (cfg : IndexCfg) (s : Schedule) (hf : Fair s) (hno : ∀ i, s.fault i = none)
    (luck : Luck Rat) (hscore : luck.score = exactScorer luck.chance) (hshuffle : ∀ l, (luck.shuffle l).Perm l)
    (args : ModelArgs) (confirm : Bool) (hm : f.data.clusters = [] ∨ (args.restart = true ∧ confirm = true))
    (hn : ∀ k, args.clusters = some k → 0 ≤ k) (hi : 1 ≤ args.iterations) (hk : 1 ≤ args.groupTopK)
    (hfields : args.fields = [] ∨ args.fields = ["text"]) :
    let docs := documents space ls
    let corpus := Pipeline.create space limit file old
    let indexed := Pipeline.indexPlain tokens cfg s corpus.1 f
    let modelled := Pipeline.model luck args confirm indexed.1
    let n : Int := if args.clusters = none ∨ args.clusters = some 0 then 64 else args.clusters.getD 0
    let db2 := modelled.1.data
    corpus = (some (numbered docs), .ok ()) ∧ indexed.2 = .ok () ∧ modelled.2 = .done ∧ Usable modelled.1 ∧
    isIndexDb modelled.1 = true ∧ Settled db2 ∧
    (∀ r ∈ db2.features, ∀ d, d ∈ r.docs ↔ r.field = "text" ∧ ∃ x t, docs[d]? = some x ∧ r.value = .text t ∧ t ∈ tokens x) ∧
    (∀ t, 0 < documentsWith tokens docs t → ∃ r ∈ db2.features, r.field = "text" ∧ r.value = .text t) ∧
    (∀ d k, (d, k) ∈ db2.docKeys ↔ ∃ x, docs[d]? = some x ∧ k = .int ((d + 1 : Nat) : Int)) ∧
    ∃ chosen : List String, (args.fields = [] → ∀ r ∈ db2.features, r.field ∈ chosen) ∧ (args.fields = ["text"] → chosen = ["text"]) ∧
      (∀ fid, (assign db2 fid).isSome ↔ ∃ x ∈ db2.features, x.fid = fid ∧ args.minDocs ≤ x.docsCount ∧ x.field ∈ chosen) ∧
      (args.minFeatures = 1 → n ≤ db2.features.countP (fun x => args.minDocs ≤ x.docsCount ∧ x.field ∈ chosen) →
        ∀ x, hasCluster db2 x ↔ 0 ≤ x ∧ x < n) := by
  intro docs corpus indexed modelled n db2'
  -- create
  obtain ⟨c1, c2⟩ := create_reads_partial space limit ls hls file hfile (Conn.fresh old) old ⟨rfl, rfl, rfl, rfl, rfl, rfl⟩
  have hcorpus : corpus = (some (numbered docs), .ok ()) := by
    show Pipeline.create space limit file old = _
    unfold Pipeline.create
    cases hx : plaintextCreate space limit (fun _ => none) file (Conn.fresh old) with
    | mk c r =>
      rw [hx] at c1 c2
      dsimp only at c1 c2
      rw [c1]
      dsimp only
      congr 1
      exact c2.committed
  -- index
  obtain ⟨db, i1, i2, i3, i4, i5, i6, i7, i8⟩ := index_plain_command tokens docs hne cfg s hf hno f hu
  have hindexed : indexed = ({ opened Faults.none f with data := db }, .ok ()) := by
    show Pipeline.indexPlain tokens cfg s corpus.1 f = _
    rw [hcorpus]; exact i1
  have hu1 : Usable indexed.1 := by rw [hindexed]; exact usable_with f hu db i2
  have hd1 : indexed.1.data = db := by rw [hindexed]
  -- model
  obtain ⟨b, m1, m2, m3, -, -, -, -⟩ := usable_opens indexed.1 hu1
  have hmodelled : modelled = ({ opened Faults.none indexed.1 with data := (modelCommand luck args confirm db).1 },
      (modelCommand luck args confirm db).2) := by
    show Pipeline.model luck args confirm indexed.1 = _
    unfold Pipeline.model
    cases hx : openIndex Faults.none indexed.1 with
    | mk c r =>
      rw [hx] at m1 m2
      dsimp only at m1 m2
      subst m1
      dsimp only
      rw [m2, m3, hd1]
  have hclu : db.clusters = [] ∨ (args.restart = true ∧ confirm = true) := hm.imp_left i8
  have hnodup : (dealtFields db args.fields).Nodup := by
    rcases hfields with h | h
    · simp only [dealtFields, h, if_true]; exact i6
    · simp [dealtFields, h]
  obtain ⟨o1, o2, ⟨o3, o3'⟩, o4, -, -, o7⟩ := model_command_creates luck args confirm db i2 hscore hshuffle hclu hn hi hk hnodup
  set db2 := (modelCommand luck args confirm db).1 with hdb2
  have hu2 : Usable modelled.1 := by rw [hmodelled]; exact usable_with _ hu1 db2 o2
  have hd2 : modelled.1.data = db2 := by rw [hmodelled]
  have hid : isIndexDb modelled.1 = true := by
    obtain ⟨-, -, -, -, -, -, e, -⟩ := usable_opens indexed.1 hu1
    rw [hmodelled]
    simp [isIndexDb, magicId, e]
  have hfe : db2'.features = db.features := by rw [show db2' = modelled.1.data from rfl, hd2]; exact o3
  have hk2 : db2'.docKeys = db.docKeys := by rw [show db2' = modelled.1.data from rfl, hd2]; exact o3'.1
  refine ⟨hcorpus, by rw [hindexed], by rw [hmodelled]; exact o1, hu2, hid, by rw [show db2' = modelled.1.data from rfl, hd2]; exact o2,
    by rw [hfe]; exact i3, by rw [hfe]; exact i4, by rw [hk2]; exact i5, dealtFields db args.fields, ?_, ?_, ?_, ?_⟩
  · intro h r hr
    rw [hfe] at hr
    simp only [dealtFields, h, if_true]; exact i7 r hr
  · intro h; simp [dealtFields, h]
  · rw [hfe, show db2' = modelled.1.data from rfl, hd2]; exact o4
  · rw [hfe, show db2' = modelled.1.data from rfl, hd2]; exact o7

/-- **C65.** From a text file to the exported model.  `create` on a file of lines (C57), `index`, `model` (making a new model with
`--min-docs` at least 1, of all fields or of `text`) and `export clusters --top-k-features 0`, on whatever corpus there was
before and on a new index file or one of the current version at rest.  Whatever the tokeniser, the batch size, the number
and the schedule of the workers, the shuffle and the random draws, all commands succeed, and the file they leave, read
back, has exactly one row for every token that occurs in at least `--min-docs` of the lines that are not blank: with the
field `text`, the token and the number of those lines.  If there are at least as many rows as clusters asked for (and
`--minimum-cluster-features` is 1), the clusters in it are numbered from 0 to that number. -/
theorem text_file_to_clusters (space : Char → Bool) (limit : Nat) (ls : List Line) (hls : ∀ l ∈ ls, l.Ok limit)
    (file : List Char) (hfile : file = ls.flatMap Line.render ∨ file ++ ['\n'] = ls.flatMap Line.render)
    (hne : documents space ls ≠ []) (old : PlainText.Db) (f : File) (hu : Usable f)
    (tokens : String → List String) (hsize : ((documents space ls).flatMap tokens).length ≤ 2 ^ 62)
    (cfg : IndexCfg) (s : Schedule) (hf : Fair s) (hno : ∀ i, s.fault i = none)
    (luck : Luck Rat) (hscore : luck.score = exactScorer luck.chance) (hshuffle : ∀ l, (luck.shuffle l).Perm l)
    (args : ModelArgs) (confirm : Bool) (hm : f.data.clusters = [] ∨ (args.restart = true ∧ confirm = true))
    (hn : ∀ k, args.clusters = some k → 0 ≤ k) (hi : 1 ≤ args.iterations) (hk : 1 ≤ args.groupTopK) (hmin : 1 ≤ args.minDocs)
    (hfields : args.fields = [] ∨ args.fields = ["text"])
    (visitC : List ClusterRow → List ClusterRow) (hvC : AnyOrder visitC) (visit : List Listed → List Listed) (hv : AnyOrder visit) :
    let corpus := Pipeline.create space limit file old
    let indexed := Pipeline.indexPlain tokens cfg s corpus.1 f
    let modelled := Pipeline.model luck args confirm indexed.1
    let exported := Pipeline.exportClusters visitC visit 0 modelled.1
    let n : Int := if args.clusters = none ∨ args.clusters = some 0 then 64 else args.clusters.getD 0
    corpus.2 = .ok () ∧ indexed.2 = .ok () ∧ modelled.2 = .done ∧
    ∃ text, exported.2 = .ok text ∧ ∃ L, ∀ limit, L ≤ limit →
      ∃ rows : List (Int × Nat × String × Nat),
        Csv.read limit false {} text = .ok ["cluster_id", "feature_id", "field", "value", "docs_count"] ::
          rows.map (fun r => .ok [toString r.1, toString r.2.1, "text", r.2.2.1, toString r.2.2.2]) ∧
        (rows.map (fun r => r.2.2.1)).Nodup ∧
        (∀ t m, (∃ c i, (c, i, t, m) ∈ rows) ↔ m = documentsWith tokens (documents space ls) t ∧ args.minDocs ≤ m) ∧
        (∀ t c, (∃ i m, (c, i, t, m) ∈ rows) ↔ TokenIn modelled.1.data t c) ∧
        (args.minFeatures = 1 → n ≤ rows.length → ∀ c, (∃ r ∈ rows, r.1 = c) ↔ 0 ≤ c ∧ c < n) := by
  intro corpus indexed modelled exported n
  obtain ⟨hcorpus, hind, hmod, hu2, hid, o2, i3, i4, -, chosen, ch1, ch2, o4, o7⟩ := text_file_modelled space limit ls hls file hfile hne old f hu
    tokens cfg s hf hno luck hscore hshuffle args confirm hm hn hi hk hfields
  set docs := documents space ls with hdocs
  set db2 := modelled.1.data with hdb2
  have hexported : exported.2 = .ok (Csv.clustersFile visitC visit db2 0) := by
    show (Pipeline.exportClusters visitC visit 0 modelled.1).2 = _
    rw [Pipeline.exportClusters, if_pos hid, onIndex_usable _ hu2]
    rfl
  -- the features of the model
  have hinj : ∀ x ∈ db2.features, ∀ y ∈ db2.features, x.fid = y.fid → x = y := fun x hx y hy h =>
    List.inj_on_of_nodup_map o2.featureIds hx hy h
  have hchosen : ∀ r ∈ db2.features, (assign db2 r.fid).isSome ↔ args.minDocs ≤ r.docs.card := by
    intro r hr
    rw [o4]
    constructor
    · rintro ⟨x, hx, h1, h2, -⟩
      rw [hinj x hx r hr h1, o2.counts r hr] at h2
      exact h2
    · intro h
      refine ⟨r, hr, rfl, by rw [o2.counts r hr]; exact h, ?_⟩
      rcases hfields with h' | h'
      · exact ch1 h' r hr
      · have hpos : r.docs.Nonempty := Finset.card_pos.1 (by omega)
        obtain ⟨d, hd⟩ := hpos
        have := ((i3 r hr d).1 hd).1
        simp [ch2 h', this]
  have hrow : ∀ r ∈ db2.features, args.minDocs ≤ r.docs.card → ∃ t, r.field = "text" ∧ r.value = .text t ∧
      r.docs.card = documentsWith tokens docs t ∧ t ∈ docs.flatMap tokens := by
    intro r hr h
    obtain ⟨d, hd⟩ := Finset.card_pos.1 (show 0 < r.docs.card by omega)
    obtain ⟨e1, x, t, hx, e2, ht⟩ := (i3 r hr d).1 hd
    refine ⟨t, e1, e2, card_documentsWith tokens docs t r.docs (fun d' => ?_), ?_⟩
    · rw [i3 r hr d']
      constructor
      · rintro ⟨-, y, t', h1, h2, h3⟩
        rw [e2] at h2
        cases h2
        exact ⟨y, h1, h3⟩
      · rintro ⟨y, h1, h2⟩
        exact ⟨e1, y, t, h1, e2, h2⟩
    · exact List.mem_flatMap.2 ⟨x, List.mem_of_getElem? hx, ht⟩
  have hw2 := o2.toWellformed
  have hfin : ∀ c, (featuresIn db2 c).length ≤ 2 ^ 62 := by
    intro c
    have hg : ∀ fid ∈ featuresIn db2 c, ∃ r ∈ db2.features, r.fid = fid ∧ args.minDocs ≤ r.docs.card := by
      intro fid hfid
      rw [mem_featuresIn hw2] at hfid
      obtain ⟨r, hr, e, -⟩ := (o4 fid).1 (by rw [hfid]; rfl)
      refine ⟨r, hr, e, (hchosen r hr).1 (by rw [e, hfid]; rfl)⟩
    let g : Nat → Val := fun fid => ((db2.features.find? (fun r => r.fid = fid)).map (·.value)).getD (.int 0)
    have hgr : ∀ r ∈ db2.features, g r.fid = r.value := by
      intro r hr
      have : db2.features.find? (fun x => x.fid = r.fid) = some r := by
        have := (feature?_eq_some o2.toWellformed r.fid r).2 ⟨hr, rfl⟩
        rwa [DB.feature?] at this
      simp only [g, this, Option.map_some, Option.getD_some]
    have hnd : ((featuresIn db2 c).map g).Nodup := by
      refine (featuresIn_nodup hw2 c).map_on ?_
      intro a ha b' hb' hab
      obtain ⟨ra, hra, rfl, ha'⟩ := hg a ha
      obtain ⟨rb, hrb, rfl, hb''⟩ := hg b' hb'
      rw [hgr ra hra, hgr rb hrb] at hab
      obtain ⟨_, ea, -⟩ := hrow ra hra ha'
      obtain ⟨_, eb, -⟩ := hrow rb hrb hb''
      rw [List.inj_on_of_nodup_map o2.featureKeys hra hrb (by rw [ea, eb, hab])]
    have hsub : (featuresIn db2 c).map g ⊆ (docs.flatMap tokens).map Val.text := by
      intro v hv'
      obtain ⟨fid, hfid, rfl⟩ := List.mem_map.1 hv'
      obtain ⟨r, hr, rfl, hr'⟩ := hg fid hfid
      obtain ⟨t, -, e2, -, e4⟩ := hrow r hr hr'
      rw [hgr r hr, e2]
      exact List.mem_map.2 ⟨t, e4, rfl⟩
    have := (hnd.subperm hsub).length_le
    rw [List.length_map, List.length_map] at this
    exact this.trans hsize
  refine ⟨congrArg Prod.snd hcorpus, hind, hmod, _, hexported, ?_⟩
  obtain ⟨L, hL⟩ := cells_fit db2
  refine ⟨L, fun limit' hl => ?_⟩
  obtain ⟨rows, r1, r2, r3⟩ := exported_clusters_read_back visitC hvC visit hv db2 o2 hfin limit' (hL limit' hl)
  have hok : ∀ x ∈ rows, x.2 ∈ db2.features ∧ args.minDocs ≤ x.2.docs.card ∧ assign db2 x.2.fid = some x.1 := by
    intro x hx
    obtain ⟨h1, h2⟩ := (r3 x.1 x.2).1 hx
    exact ⟨h1, (hchosen x.2 h1).1 (by rw [h2]; rfl), h2⟩
  refine ⟨rows.map (fun x => (x.1, x.2.fid, written x.2.value, x.2.docs.card)), ?_, ?_, ?_, ?_, ?_⟩
  · rw [r1, List.map_map]
    congr 1
    apply List.map_congr_left
    intro x hx
    obtain ⟨h1, h2, -⟩ := hok x hx
    obtain ⟨t, e1, -⟩ := hrow x.2 h1 h2
    simp only [Function.comp, spreadsheetRow, e1]
  · rw [List.map_map]
    refine List.Nodup.map_on ?_ (List.Nodup.of_map _ r2)
    intro x hx y hy hxy
    obtain ⟨h1, h2, h3⟩ := hok x hx
    obtain ⟨h4, h5, h6⟩ := hok y hy
    obtain ⟨t, e1, e2, -⟩ := hrow x.2 h1 h2
    obtain ⟨t', e3, e4, -⟩ := hrow y.2 h4 h5
    simp only [Function.comp, e2, e4, written] at hxy
    have h7 : x.2 = y.2 := List.inj_on_of_nodup_map o2.featureKeys h1 h4 (by rw [e1, e3, e2, e4, hxy])
    have h8 : x.1 = y.1 := by rw [h7, h6] at h3; exact (Option.some.inj h3).symm
    exact Prod.ext h8 h7
  · intro t m
    simp only [List.mem_map, Prod.mk.injEq]
    constructor
    · rintro ⟨c, i, x, hx, -, -, e1, e2⟩
      obtain ⟨h1, h2, -⟩ := hok x hx
      obtain ⟨t', -, e4, e5, -⟩ := hrow x.2 h1 h2
      rw [e4] at e1
      simp only [written] at e1
      subst e1 e2
      exact ⟨e5, h2⟩
    · rintro ⟨rfl, h⟩
      obtain ⟨r, hr, e1, e2⟩ := i4 t (by omega)
      have hcard : r.docs.card = documentsWith tokens docs t := by
        apply card_documentsWith
        intro d
        rw [i3 r hr d]
        constructor
        · rintro ⟨-, y, t', h1, h2, h3⟩
          rw [e2] at h2
          cases h2
          exact ⟨y, h1, h3⟩
        · rintro ⟨y, h1, h2⟩
          exact ⟨e1, y, t, h1, e2, h2⟩
      have hsome := (hchosen r hr).2 (by rw [hcard]; exact h)
      obtain ⟨c, hc⟩ := Option.isSome_iff_exists.1 hsome
      exact ⟨c, r.fid, (c, r), (r3 c r).2 ⟨hr, hc⟩, rfl, rfl, by rw [e2]; rfl, hcard⟩
  · intro t c
    simp only [List.mem_map, Prod.mk.injEq]
    constructor
    · rintro ⟨i, m, x, hx, rfl, -, e1, -⟩
      obtain ⟨h1, h2, h3⟩ := hok x hx
      obtain ⟨t', e3, e4, -⟩ := hrow x.2 h1 h2
      rw [e4] at e1
      simp only [written] at e1
      subst e1
      exact ⟨x.2, h1, e3, e4, h3⟩
    · rintro ⟨r, hr, e1, e2, e3⟩
      exact ⟨r.fid, r.docs.card, (c, r), (r3 c r).2 ⟨hr, e3⟩, rfl, rfl, by rw [e2]; rfl, rfl⟩
  · intro hmf hle c
    rw [List.length_map] at hle
    have hcount : rows.length = db2.features.countP (fun x => args.minDocs ≤ x.docsCount ∧ x.field ∈ chosen) := by
      rw [List.countP_eq_length_filter, ← List.length_map (fun x : Int × FeatRow => x.2.fid), ← List.length_map (as := List.filter _ _) (fun x : FeatRow => x.fid)]
      apply List.Perm.length_eq
      rw [List.perm_ext_iff_of_nodup r2 ((o2.featureIds).sublist (List.Sublist.map _ List.filter_sublist))]
      intro fid
      simp only [List.mem_map, List.mem_filter, decide_eq_true_eq]
      constructor
      · rintro ⟨x, hx, rfl⟩
        obtain ⟨h1, h2, h3⟩ := hok x hx
        obtain ⟨y, hy, e, h4⟩ := (o4 x.2.fid).1 (by rw [h3]; rfl)
        exact ⟨y, ⟨hy, h4⟩, e⟩
      · rintro ⟨y, ⟨hy, h4⟩, rfl⟩
        obtain ⟨c', hc'⟩ := Option.isSome_iff_exists.1 ((o4 y.fid).2 ⟨y, hy, rfl, h4⟩)
        exact ⟨(c', y), (r3 c' y).2 ⟨hy, hc'⟩, rfl⟩
    rw [← o7 hmf (by rw [← hcount]; exact hle) c]
    simp only [List.mem_map, exists_exists_and_eq_and]
    constructor
    · rintro ⟨x, hx, rfl⟩
      obtain ⟨-, -, h3⟩ := hok x hx
      obtain ⟨r, hr, e1, e2⟩ := (assign_some_iff hw2 _ _).1 h3
      obtain ⟨k, hk', e⟩ := hw2.knownCluster r hr
      exact ⟨k, hk', by rw [e, e2]⟩
    · rintro ⟨k, hk', rfl⟩
      obtain ⟨r, hr, e⟩ := (o2.summaries k hk').nonempty
      have ha : assign db2 r.fid = some k.cid := (assign_some_iff hw2 _ _).2 ⟨r, hr, rfl, e⟩
      obtain ⟨y, hy, e', h4⟩ := (o4 r.fid).1 (by rw [ha]; rfl)
      exact ⟨(k.cid, y), (r3 _ _).2 ⟨hy, by rw [e']; exact ha⟩, rfl⟩

/-- Letters as tokens. -/
def letters (s : String) : List String := (s.toList.filter (· ≠ ' ')).map (fun c => String.ofList [c])

/-- Four lines, one of them blank. -/
def demoLines : List Line := [.plain "b a".toList, .plain " ".toList, .cut "a c".toList " z".toList, .quoted "a,\"b\"\nd".toList]

theorem demoLines_ok : ∀ l ∈ demoLines, l.Ok 100 := by
  intro l hl
  simp only [demoLines, List.mem_cons, List.not_mem_nil, or_false] at hl
  rcases hl with rfl | rfl | rfl | rfl <;> simp only [Line.Ok] <;> decide +kernel

/-- The hypotheses of `text_file_to_clusters` are met. -/
example : (∀ l ∈ demoLines, l.Ok 100) ∧ documents (· = ' ') demoLines = ["b a", "a c", "a,\"b\"\nd"] ∧ Usable File.empty ∧
    ((documents (· = ' ') demoLines).flatMap letters).length ≤ 2 ^ 62 ∧ Fair demoSchedule ∧ (∀ i, demoSchedule.fault i = none) ∧
    demoLuck.score = exactScorer demoLuck.chance ∧ (∀ l, (demoLuck.shuffle l).Perm l) ∧ AnyOrder (id : List Listed → List Listed) := by
  exact ⟨demoLines_ok, by decide +kernel, .inl ⟨rfl, rfl, rfl⟩, by decide +kernel, demo_fair, fun _ => rfl, rfl, fun _ => .refl _, fun _ => .refl _⟩

/-- What the exported file then says: "a" is in three documents, "c" in one. -/
example : documentsWith letters (documents (· = ' ') demoLines) "a" = 3 ∧ documentsWith letters (documents (· = ' ') demoLines) "c" = 1 ∧
    (Pipeline.create (· = ' ') 100 (demoLines.flatMap Line.render) none).1 = some [(1, "b a"), (2, "a c"), (3, "a,\"b\"\nd")] := by decide +kernel

end Hyperreal.Props
