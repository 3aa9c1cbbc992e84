import Verif.Props.PipelineSample
import Verif.Props.Corpora

/-!
# The commands on any corpus

Index, model, export clusters and sample, for any corpus whose documents can be indexed; the documents are told apart by
their keys.
-/

namespace Hyperreal.Props
open Atomic Spec Cli Migrate

variable {corpus : Corpus} {content : Val → Features}

theorem occurs_iff (f : String) (v : Val) (d : Nat) :
    Occurs corpus content f v d ↔ ∃ k, corpus.keys[d]? = some k ∧ HasValue content k f v := by
  constructor
  · rintro ⟨k, vs, h1, h2, h3⟩; exact ⟨k, h1, vs, h2, h3⟩
  · rintro ⟨k, h1, vs, h2, h3⟩; exact ⟨k, vs, h1, h2, h3⟩

open Classical in
/-- Counting members of a list without repetitions by their places. -/
theorem card_howMany {α : Type} (P : α → Prop) (l : List α) (D : Finset Nat)
    (hD : ∀ d, d ∈ D ↔ ∃ k, l[d]? = some k ∧ P k) : D.card = howMany P l := by
  have key : ∀ l : List α, ∃ E : Finset Nat, (∀ d, d ∈ E ↔ ∃ k, l[d]? = some k ∧ P k) ∧ E.card = howMany P l := by
    intro l
    induction l using List.reverseRecOn with
    | nil => exact ⟨∅, by simp, rfl⟩
    | append_singleton l a ih =>
      obtain ⟨E, h1, h2⟩ := ih
      have hE : l.length ∉ E := by
        intro h
        obtain ⟨k, hk, -⟩ := (h1 _).1 h
        simp at hk
      have hmem : ∀ d, (∃ k, (l ++ [a])[d]? = some k ∧ P k) ↔ d ∈ E ∨ (d = l.length ∧ P a) := by
        intro d
        rw [h1]
        rcases lt_trichotomy d l.length with h | h | h
        · rw [List.getElem?_append_left h]
          constructor
          · exact .inl
          · rintro (h' | ⟨h', -⟩)
            · exact h'
            · omega
        · subst h; simp
        · have e1 : (l ++ [a])[d]? = none := List.getElem?_eq_none (by simp; omega)
          have e2 : l[d]? = none := List.getElem?_eq_none (by omega)
          rw [e1, e2]
          simp
          omega
      by_cases h : P a
      · refine ⟨insert l.length E, fun d => ?_, ?_⟩
        · rw [hmem, Finset.mem_insert]; tauto
        · rw [Finset.card_insert_of_notMem hE, h2]; simp [howMany, h]
      · refine ⟨E, fun d => ?_, ?_⟩
        · rw [hmem]; tauto
        · rw [h2]; simp [howMany, h]
  obtain ⟨E, h1, h2⟩ := key l
  rw [← h2]
  congr 1
  ext d
  rw [hD, h1]

/-- Indexing a corpus into a file: the tables of the file describe the documents. -/
theorem index_any_command (hs : Serves corpus content) (cfg : IndexCfg) (hi : Indexable corpus content cfg.positions)
    (hne : corpus.keys ≠ []) (s : Schedule)
    (hf : Fair s) (hno : ∀ i, s.fault i = none) (f : File) (hu : Usable f) :
    ∃ new, Pipeline.onIndex f (indexCall corpus cfg s) = ({ opened Faults.none f with data := new }, .ok ()) ∧
      Settled new ∧ (∀ r ∈ new.features, ∀ d, d ∈ r.docs ↔ ∃ k, corpus.keys[d]? = some k ∧ HasValue content k r.field r.value) ∧
      (∀ k ∈ corpus.keys, ∀ fl v, HasValue content k fl v → ∃ r ∈ new.features, r.field = fl ∧ r.value = v) ∧
      (∀ d k, (d, k) ∈ new.docKeys ↔ corpus.keys[d]? = some k) ∧
      (new.fieldSummary.map (·.field)).Nodup ∧ (∀ r ∈ new.features, r.field ∈ new.fieldSummary.map (·.field)) ∧
      (f.data.clusters = [] → new.clusters = []) := by
  obtain ⟨b, -, -, -, hset, -⟩ := usable_opens f hu
  have hidle : Idle (Conn.fresh f.data) f.data := fresh_idle _
  have hok := index_succeeds hidle hset hs hi hf hne hno
  obtain ⟨-, -, -, new, h1, h2, ⟨h3, h4, h5, -, -, h8⟩, h9, -⟩ := index_success hidle (DB.Settled.toPending hset) hs hf hok
  have hI := reindexed_isIndex (cfg := cfg) (s := s) hs hi hf hset.toWellformed
  obtain ⟨a1, a2, -⟩ := reindexed_summary (cfg := cfg) (s := s) hs hi hf hset.toWellformed
  refine ⟨new, ?_, h2, ?_, ?_, ?_, by rw [h8]; exact a2, ?_, ?_⟩
  · rw [onIndex_usable f hu, hok]
    have : (indexCall corpus cfg s (Conn.fresh f.data)).1.close = new := h1.committed
    rw [this]
  · intro r hr d
    rw [h3] at hr
    rw [(reindexed_row hs hi hf hset.toWellformed hr).2 d, occurs_iff]
  · intro k hk fl v hv
    obtain ⟨d, hd⟩ := List.getElem?_of_mem hk
    have := (hI.lookup fl v d).2 ((occurs_iff fl v d).2 ⟨k, hd, hv⟩)
    rw [DB.docsOfKey] at this
    split at this
    · rename_i r hr
      have h := List.find?_some hr
      simp only [decide_eq_true_eq] at h
      exact ⟨r, by rw [h3]; exact List.mem_of_find?_eq_some hr, h⟩
    · simp at this
  · intro d k
    rw [h5, hI.docKeys]
  · intro r hr
    rw [h3] at hr
    obtain ⟨row, hrow, e⟩ := (a1 r.field).2 ⟨r, hr, rfl⟩
    rw [h8]
    exact List.mem_map.2 ⟨row, hrow, e⟩
  · intro hc
    rw [List.eq_nil_iff_forall_not_mem]
    intro k hk
    obtain ⟨k', hk', -⟩ := h9 k hk
    rw [hc] at hk'
    cases hk'

/-- The index file after indexing and `model`. -/
theorem any_modelled (hs : Serves corpus content) (cfg : IndexCfg) (hi : Indexable corpus content cfg.positions)
    (hne : corpus.keys ≠ []) (s : Schedule) (hf : Fair s) (hno : ∀ i, s.fault i = none) (f : File) (hu : Usable f)
    (luck : Luck Rat) (hscore : luck.score = exactScorer luck.chance) (hshuffle : ∀ l, (luck.shuffle l).Perm l)
    (args : ModelArgs) (confirm : Bool) (hm : f.data.clusters = [] ∨ (args.restart = true ∧ confirm = true))
    (hn : ∀ k, args.clusters = some k → 0 ≤ k) (hit : 1 ≤ args.iterations) (hk : 1 ≤ args.groupTopK)
    (hfields : args.fields.Nodup) :
    let indexed := Pipeline.onIndex f (indexCall corpus cfg s)
    let modelled := Pipeline.model luck args confirm indexed.1
    let n : Int := if args.clusters = none ∨ args.clusters = some 0 then 64 else args.clusters.getD 0
    let db2 := modelled.1.data
    indexed.2 = .ok () ∧ modelled.2 = .done ∧ Usable modelled.1 ∧ isIndexDb modelled.1 = true ∧ Settled db2 ∧
    (∀ r ∈ db2.features, ∀ d, d ∈ r.docs ↔ ∃ k, corpus.keys[d]? = some k ∧ HasValue content k r.field r.value) ∧
    (∀ k ∈ corpus.keys, ∀ fl v, HasValue content k fl v → ∃ r ∈ db2.features, r.field = fl ∧ r.value = v) ∧
    (∀ d k, (d, k) ∈ db2.docKeys ↔ corpus.keys[d]? = some k) ∧
    ∃ chosen : List String, (∀ r ∈ db2.features, r.field ∈ chosen ↔ args.fields = [] ∨ r.field ∈ args.fields) ∧
      (∀ fid, (assign db2 fid).isSome ↔ ∃ x ∈ db2.features, x.fid = fid ∧ args.minDocs ≤ x.docsCount ∧ x.field ∈ chosen) ∧
      (args.minFeatures = 1 → n ≤ db2.features.countP (fun x => args.minDocs ≤ x.docsCount ∧ x.field ∈ chosen) →
        ∀ x, hasCluster db2 x ↔ 0 ≤ x ∧ x < n) := by
  intro indexed modelled n db2'
  obtain ⟨db, i1, i2, i3, i4, i5, i6, i7, i8⟩ := index_any_command hs cfg hi hne s hf hno f hu
  have hindexed : indexed = ({ opened Faults.none f with data := db }, .ok ()) := i1
  have hu1 : Usable indexed.1 := by rw [hindexed]; exact usable_with f hu db i2
  have hd1 : indexed.1.data = db := by rw [hindexed]
  obtain ⟨b, m1, m2, m3, -, -, -, -⟩ := usable_opens indexed.1 hu1
  have hmodelled : modelled = ({ opened Faults.none indexed.1 with data := (modelCommand luck args confirm db).1 },
      (modelCommand luck args confirm db).2) := by
    show Pipeline.model luck args confirm indexed.1 = _
    unfold Pipeline.model
    cases hx : openIndex Faults.none indexed.1 with
    | mk c r =>
      rw [hx] at m1 m2
      dsimp only at m1 m2
      subst m1
      dsimp only
      rw [m2, m3, hd1]
  have hclu : db.clusters = [] ∨ (args.restart = true ∧ confirm = true) := hm.imp_left i8
  have hnodup : (dealtFields db args.fields).Nodup := by
    by_cases h : args.fields = []
    · simp only [dealtFields, h, if_true]; exact i6
    · simp only [dealtFields, h, if_false]; exact hfields
  obtain ⟨o1, o2, ⟨o3, o3'⟩, o4, -, -, o7⟩ := model_command_creates luck args confirm db i2 hscore hshuffle hclu hn hit hk hnodup
  set db2 := (modelCommand luck args confirm db).1 with hdb2
  have hu2 : Usable modelled.1 := by rw [hmodelled]; exact usable_with _ hu1 db2 o2
  have hd2 : modelled.1.data = db2 := by rw [hmodelled]
  have hid : isIndexDb modelled.1 = true := by
    obtain ⟨-, -, -, -, -, -, e, -⟩ := usable_opens indexed.1 hu1
    rw [hmodelled]
    simp [isIndexDb, magicId, e]
  have hfe : db2'.features = db.features := by rw [show db2' = modelled.1.data from rfl, hd2]; exact o3
  have hk2 : db2'.docKeys = db.docKeys := by rw [show db2' = modelled.1.data from rfl, hd2]; exact o3'.1
  refine ⟨by rw [hindexed], by rw [hmodelled]; exact o1, hu2, hid, by rw [show db2' = modelled.1.data from rfl, hd2]; exact o2,
    by rw [hfe]; exact i3, by rw [hfe]; exact i4, by rw [hk2]; exact i5, dealtFields db args.fields, ?_, ?_, ?_⟩
  · intro r hr
    rw [hfe] at hr
    by_cases h : args.fields = []
    · simp only [dealtFields, h, if_true, true_or, iff_true]; exact i7 r hr
    · simp [dealtFields, h]
  · rw [hfe, show db2' = modelled.1.data from rfl, hd2]; exact o4
  · rw [hfe, show db2' = modelled.1.data from rfl, hd2]; exact o7

/-- The exported clusters of a model of any corpus. -/
theorem any_to_clusters (hs : Serves corpus content) (cfg : IndexCfg) (hi : Indexable corpus content cfg.positions)
    (hne : corpus.keys ≠ []) (s : Schedule) (hf : Fair s) (hno : ∀ i, s.fault i = none) (f : File) (hu : Usable f)
    (vocabulary : List (String × Val)) (hvoc : ∀ k ∈ corpus.keys, ∀ fl v, HasValue content k fl v → (fl, v) ∈ vocabulary)
    (hsize : vocabulary.length ≤ 2 ^ 62)
    (luck : Luck Rat) (hscore : luck.score = exactScorer luck.chance) (hshuffle : ∀ l, (luck.shuffle l).Perm l)
    (args : ModelArgs) (confirm : Bool) (hm : f.data.clusters = [] ∨ (args.restart = true ∧ confirm = true))
    (hn : ∀ k, args.clusters = some k → 0 ≤ k) (hit : 1 ≤ args.iterations) (hk : 1 ≤ args.groupTopK) (hmin : 1 ≤ args.minDocs)
    (hfields : args.fields.Nodup)
    (visitC : List ClusterRow → List ClusterRow) (hvC : AnyOrder visitC) (visit : List Listed → List Listed) (hv : AnyOrder visit) :
    let indexed := Pipeline.onIndex f (indexCall corpus cfg s)
    let modelled := Pipeline.model luck args confirm indexed.1
    let exported := Pipeline.exportClusters visitC visit 0 modelled.1
    let n : Int := if args.clusters = none ∨ args.clusters = some 0 then 64 else args.clusters.getD 0
    indexed.2 = .ok () ∧ modelled.2 = .done ∧
    ∃ text, exported.2 = .ok text ∧ ∃ L, ∀ limit, L ≤ limit →
      ∃ rows : List (Int × Nat × String × Val × Nat),
        Csv.read limit false {} text = .ok ["cluster_id", "feature_id", "field", "value", "docs_count"] ::
          rows.map (fun r => .ok [toString r.1, toString r.2.1, r.2.2.1, written r.2.2.2.1, toString r.2.2.2.2]) ∧
        (rows.map (fun r => (r.2.2.1, r.2.2.2.1))).Nodup ∧
        (∀ fl v m, (∃ c i, (c, i, fl, v, m) ∈ rows) ↔
          m = howMany (fun k => HasValue content k fl v) corpus.keys ∧ args.minDocs ≤ m ∧ (args.fields = [] ∨ fl ∈ args.fields)) ∧
        (∀ fl v c, (∃ i m, (c, i, fl, v, m) ∈ rows) ↔ ValueIn modelled.1.data fl v c) ∧
        (args.minFeatures = 1 → n ≤ rows.length → ∀ c, (∃ r ∈ rows, r.1 = c) ↔ 0 ≤ c ∧ c < n) := by
  intro indexed modelled exported n
  obtain ⟨hind, hmod, hu2, hid, o2, i3, i4, -, chosen, ch, o4, o7⟩ := any_modelled hs cfg hi hne s hf hno f hu
    luck hscore hshuffle args confirm hm hn hit hk hfields
  set db2 := modelled.1.data with hdb2
  have hexported : exported.2 = .ok (Csv.clustersFile visitC visit db2 0) := by
    show (Pipeline.exportClusters visitC visit 0 modelled.1).2 = _
    rw [Pipeline.exportClusters, if_pos hid, onIndex_usable _ hu2]
    rfl
  have hinj : ∀ x ∈ db2.features, ∀ y ∈ db2.features, x.fid = y.fid → x = y := fun x hx y hy h =>
    List.inj_on_of_nodup_map o2.featureIds hx hy h
  have hchosen : ∀ r ∈ db2.features, (assign db2 r.fid).isSome ↔
      args.minDocs ≤ r.docs.card ∧ (args.fields = [] ∨ r.field ∈ args.fields) := by
    intro r hr
    rw [o4]
    constructor
    · rintro ⟨x, hx, h1, h2, h3⟩
      rw [hinj x hx r hr h1] at h2 h3
      rw [o2.counts r hr] at h2
      exact ⟨h2, (ch r hr).1 h3⟩
    · rintro ⟨h, h'⟩
      exact ⟨r, hr, rfl, by rw [o2.counts r hr]; exact h, (ch r hr).2 h'⟩
  have hcard : ∀ r ∈ db2.features, r.docs.card = howMany (fun k => HasValue content k r.field r.value) corpus.keys :=
    fun r hr => card_howMany _ _ _ (i3 r hr)
  have hw2 := o2.toWellformed
  have hfin : ∀ c, (featuresIn db2 c).length ≤ 2 ^ 62 := by
    intro c
    have hg : ∀ fid ∈ featuresIn db2 c, ∃ r ∈ db2.features, r.fid = fid ∧ args.minDocs ≤ r.docs.card := by
      intro fid hfid
      rw [mem_featuresIn hw2] at hfid
      obtain ⟨r, hr, e, -⟩ := (o4 fid).1 (by rw [hfid]; rfl)
      exact ⟨r, hr, e, ((hchosen r hr).1 (by rw [e, hfid]; rfl)).1⟩
    let g : Nat → String × Val := fun fid => ((db2.features.find? (fun r => r.fid = fid)).map (fun r => (r.field, r.value))).getD ("", .int 0)
    have hgr : ∀ r ∈ db2.features, g r.fid = (r.field, r.value) := by
      intro r hr
      have : db2.features.find? (fun x => x.fid = r.fid) = some r := by
        have := (feature?_eq_some o2.toWellformed r.fid r).2 ⟨hr, rfl⟩
        rwa [DB.feature?] at this
      simp only [g, this, Option.map_some, Option.getD_some]
    have hnd : ((featuresIn db2 c).map g).Nodup := by
      refine (featuresIn_nodup hw2 c).map_on ?_
      intro a ha b' hb' hab
      obtain ⟨ra, hra, rfl, ha'⟩ := hg a ha
      obtain ⟨rb, hrb, rfl, hb''⟩ := hg b' hb'
      rw [hgr ra hra, hgr rb hrb] at hab
      rw [List.inj_on_of_nodup_map o2.featureKeys hra hrb hab]
    have hsub : (featuresIn db2 c).map g ⊆ vocabulary := by
      intro v hv'
      obtain ⟨fid, hfid, rfl⟩ := List.mem_map.1 hv'
      obtain ⟨r, hr, rfl, hr'⟩ := hg fid hfid
      obtain ⟨d, hd⟩ := Finset.card_pos.1 (show 0 < r.docs.card by omega)
      obtain ⟨k, hk1, hk2⟩ := (i3 r hr d).1 hd
      rw [hgr r hr]
      exact hvoc k (List.mem_of_getElem? hk1) _ _ hk2
    have := (hnd.subperm hsub).length_le
    rw [List.length_map] at this
    exact this.trans hsize
  refine ⟨hind, hmod, _, hexported, ?_⟩
  obtain ⟨L, hL⟩ := cells_fit db2
  refine ⟨L, fun limit' hl => ?_⟩
  obtain ⟨rows, r1, r2, r3⟩ := exported_clusters_read_back visitC hvC visit hv db2 o2 hfin limit' (hL limit' hl)
  have hok : ∀ x ∈ rows, x.2 ∈ db2.features ∧ (args.minDocs ≤ x.2.docs.card ∧ (args.fields = [] ∨ x.2.field ∈ args.fields)) ∧
      assign db2 x.2.fid = some x.1 := by
    intro x hx
    obtain ⟨h1, h2⟩ := (r3 x.1 x.2).1 hx
    exact ⟨h1, (hchosen x.2 h1).1 (by rw [h2]; rfl), h2⟩
  refine ⟨rows.map (fun x => (x.1, x.2.fid, x.2.field, x.2.value, x.2.docs.card)), ?_, ?_, ?_, ?_, ?_⟩
  · rw [r1, List.map_map]
    rfl
  · rw [List.map_map]
    refine List.Nodup.map_on ?_ (List.Nodup.of_map _ r2)
    intro x hx y hy hxy
    obtain ⟨h1, h2, h3⟩ := hok x hx
    obtain ⟨h4, h5, h6⟩ := hok y hy
    have h7 : x.2 = y.2 := List.inj_on_of_nodup_map o2.featureKeys h1 h4 hxy
    have h8 : x.1 = y.1 := by rw [h7, h6] at h3; exact (Option.some.inj h3).symm
    exact Prod.ext h8 h7
  · intro fl v m
    simp only [List.mem_map, Prod.mk.injEq]
    constructor
    · rintro ⟨c, i, x, hx, -, -, rfl, rfl, rfl⟩
      obtain ⟨h1, ⟨h2, h3⟩, -⟩ := hok x hx
      exact ⟨hcard x.2 h1, h2, h3⟩
    · rintro ⟨rfl, h, h'⟩
      have hpos : 0 < howMany (fun k => HasValue content k fl v) corpus.keys := by omega
      rw [howMany, List.countP_pos_iff] at hpos
      obtain ⟨k, hk1, hk2⟩ := hpos
      obtain ⟨r, hr, rfl, rfl⟩ := i4 k hk1 fl v (by simpa using hk2)
      obtain ⟨c, hc⟩ := Option.isSome_iff_exists.1 ((hchosen r hr).2 ⟨by rw [hcard r hr]; exact h, h'⟩)
      exact ⟨c, r.fid, (c, r), (r3 c r).2 ⟨hr, hc⟩, rfl, rfl, rfl, rfl, hcard r hr⟩
  · intro fl v c
    simp only [List.mem_map, Prod.mk.injEq]
    constructor
    · rintro ⟨i, m, x, hx, rfl, -, rfl, rfl, -⟩
      obtain ⟨h1, h2, h3⟩ := hok x hx
      exact ⟨x.2, h1, rfl, rfl, h3⟩
    · rintro ⟨r, hr, rfl, rfl, e3⟩
      exact ⟨r.fid, r.docs.card, (c, r), (r3 c r).2 ⟨hr, e3⟩, rfl, rfl, rfl, rfl, rfl⟩
  · intro hmf hle c
    rw [List.length_map] at hle
    have hcount : rows.length = db2.features.countP (fun x => args.minDocs ≤ x.docsCount ∧ x.field ∈ chosen) := by
      rw [List.countP_eq_length_filter, ← List.length_map (fun x : Int × FeatRow => x.2.fid), ← List.length_map (as := List.filter _ _) (fun x : FeatRow => x.fid)]
      apply List.Perm.length_eq
      rw [List.perm_ext_iff_of_nodup r2 ((o2.featureIds).sublist (List.Sublist.map _ List.filter_sublist))]
      intro fid
      simp only [List.mem_map, List.mem_filter, decide_eq_true_eq]
      constructor
      · rintro ⟨x, hx, rfl⟩
        obtain ⟨h1, h2, h3⟩ := hok x hx
        obtain ⟨y, hy, e, h4⟩ := (o4 x.2.fid).1 (by rw [h3]; rfl)
        exact ⟨y, ⟨hy, h4⟩, e⟩
      · rintro ⟨y, ⟨hy, h4⟩, rfl⟩
        obtain ⟨c', hc'⟩ := Option.isSome_iff_exists.1 ((o4 y.fid).2 ⟨y, hy, rfl, h4⟩)
        exact ⟨(c', y), (r3 c' y).2 ⟨hy, hc'⟩, rfl⟩
    rw [← o7 hmf (by rw [← hcount]; exact hle) c]
    simp only [List.mem_map, exists_exists_and_eq_and]
    constructor
    · rintro ⟨x, hx, rfl⟩
      obtain ⟨-, -, h3⟩ := hok x hx
      obtain ⟨r, hr, e1, e2⟩ := (assign_some_iff hw2 _ _).1 h3
      obtain ⟨k, hk', e⟩ := hw2.knownCluster r hr
      exact ⟨k, hk', by rw [e, e2]⟩
    · rintro ⟨k, hk', rfl⟩
      obtain ⟨r, hr, e⟩ := (o2.summaries k hk').nonempty
      have ha : assign db2 r.fid = some k.cid := (assign_some_iff hw2 _ _).2 ⟨r, hr, rfl, e⟩
      obtain ⟨y, hy, e', h4⟩ := (o4 r.fid).1 (by rw [ha]; rfl)
      exact ⟨(k.cid, y), (r3 _ _).2 ⟨hy, by rw [e']; exact ha⟩, rfl⟩

/-- The sample of a model, written to a file, for any tables whose documents can be rendered. -/
theorem sample_written (render : List Val → Except Err (List (Val × Rendered))) (shown : Val → Rendered) (fields : List String)
    (db : DB) (hset : Settled db)
    (hrender : ∀ ks, (∀ k ∈ ks, ∃ d, (d, k) ∈ db.docKeys) → render ks = .ok (ks.map (fun k => (k, shown k))))
    (hnames : ∀ n ∈ fields, n ≠ "doc_key" ∧ n ≠ "sampled_cluster" ∧ ∀ c, n ≠ clusterColumn c)
    (hshown : ∀ k c, Dict.get? (shown k) (clusterColumn c) = none)
    (key : Nat → Val) (hkey : ∀ d k, (d, k) ∈ db.docKeys → k = key d)
    (hcov : ∀ c d, CoveredBy db c d → ∃ k, (d, k) ∈ db.docKeys)
    (visitC : List ClusterRow → List ClusterRow) (hv : AnyOrder visitC)
    (pick : Int → Nat → Nat → List Nat) (hp : ∀ c, Draws (pick c)) (k : Int) :
    ∃ text, (do
        let (samples, clusters) ← structuredDocSample visitC pick db k []
        Csv.sampleFile render fields db samples clusters) = .ok text ∧ ∃ L, ∀ limit, L ≤ limit →
      ∃ (rows : List (Int × Nat)) (cols : List Int) (cells : Int × Nat → List String),
        Csv.read limit false {} text = .ok (["doc_key", "sampled_cluster"] ++ fields ++ cols.map clusterColumn) ::
          rows.map (fun e => .ok (cells e)) ∧
        (∀ e, ∃ marks, cells e = [written (key e.2), toString e.1] ++ fields.map (fun n => cellWritten (Dict.get? (shown (key e.2)) n)) ++ marks ∧
          List.Forall₂ (fun c m => (m = "1" ∧ CoveredBy db c e.2) ∨ (m = "" ∧ ¬ CoveredBy db c e.2)) cols marks) ∧
        (rows.map (·.2)).Nodup ∧ (∀ e ∈ rows, CoveredBy db e.1 e.2) ∧
        cols.Pairwise (· < ·) ∧ (∀ c, c ∈ cols ↔ ∃ e ∈ rows, CoveredBy db c e.2) ∧
        (0 < k → ∀ c, (rows.countP (fun e => e.1 = c) : Int) ≤ k) ∧
        (∀ c d, CoveredBy db c d → (∃ e ∈ rows, e.2 = d) ∨ (0 < k ∧ (rows.countP (fun e => e.1 = c) : Int) = k)) := by
  classical
  obtain ⟨samples, clusters, order, s1, s2, s3, s4, s5, s6, s7, s8, s9, s10, s11, s12⟩ :=
    structured_sample visitC hv pick hp db hset k []
  have hns : (Dict.keys samples).Nodup := by rw [s2]; exact s3
  have hd : ∀ e ∈ samples, ∀ d ∈ e.2, ∃ k, (d, k) ∈ db.docKeys := fun e he d hde =>
    hcov e.1 d (s6 e.1 e.2 (Dict.get?_of_mem hns he) d hde)
  obtain ⟨table, columns, x1, x2, x3⟩ := export_rows_aligned render shown fields db samples clusters hrender hd s10
    (fun n hn => ⟨(hnames n hn).1, (hnames n hn).2.1, fun x _ => (hnames n hn).2.2 x.1⟩) (fun v x _ => hshown v x.1)
  set cols := (Dict.keys clusters).insertionSort (· ≤ ·) with hcols
  set rows := samples.flatMap (fun e => e.2.elems.map (fun d => (e.1, d))) with hrows
  have hpairs : ∀ c d, (c, d) ∈ rows ↔ ∃ S, Dict.get? samples c = some S ∧ d ∈ S := sample_pairs samples hns
  have hcol : ∀ c, c ∈ cols ↔ c ∈ Dict.keys clusters := fun c => List.mem_insertionSort _
  set line : Int × Nat → List String := fun e => [written (key e.2), toString e.1] ++
    fields.map (fun n => cellWritten (Dict.get? (shown (key e.2)) n)) ++ cols.map (fun c => if CoveredBy db c e.2 then "1" else "") with hline
  have hlines : table.map (fun row => row.map cellWritten) = rows.map line := by
    refine map_of_forall₂ _ _ x3 ?_
    rintro ⟨c, d⟩ hcd row ⟨cell, v, e1, e2, e3, e4, e5, e6⟩
    have hv' := hkey d v e2
    subst hv'
    rw [e1, x2, hline]
    simp only [List.map_append, List.map_cons, List.map_nil, List.map_map, e3, e4]
    refine congrArg₂ _ (congrArg₂ _ rfl ?_) ?_
    · apply List.map_congr_left
      intro n hn
      simp only [Function.comp, e5 n hn]
    · apply List.map_congr_left
      intro c' hc'
      obtain ⟨S, hS⟩ := (Dict.get?_isSome clusters c').2 ((hcol c').1 hc')
      have h2 := e6 (c', S) (Dict.mem_of_get? hS)
      simp only [Function.comp]
      rw [h2]
      have h3 : d ∈ S ↔ CoveredBy db c' d := by
        constructor
        · intro h; exact ((s12 c' d).1 ⟨S, hS, h⟩).1
        · intro h
          obtain ⟨S', hS', h'⟩ := (hpairs c d).1 hcd
          obtain ⟨T, hT, h''⟩ := (s12 c' d).2 ⟨h, c, S', hS', h'⟩
          rw [hS] at hT
          cases hT
          exact h''
      by_cases h : d ∈ S
      · rw [if_pos h, if_pos (h3.1 h)]; rfl
      · rw [if_neg h, if_neg (fun h' => h (h3.2 h'))]; rfl
  obtain ⟨L, hL⟩ := longest_cell (sampleColumns fields clusters :: table.map (fun row => row.map cellWritten))
  have hr0 : (do
        let (samples, clusters) ← structuredDocSample visitC pick db k []
        Csv.sampleFile render fields db samples clusters) = Csv.sampleFile render fields db samples clusters := by
    rw [s1]
    rfl
  obtain ⟨text, t1, -⟩ := exported_sample_reads_back _ fields db samples clusters table x1 L
    (fun s hs => hL _ (by simp) s hs) (fun row hrow x hx =>
      hL (row.map cellWritten) (by simp only [List.mem_cons, List.mem_map]; exact .inr ⟨row, hrow, rfl⟩) _ (List.mem_map.2 ⟨x, hx, rfl⟩))
  refine ⟨text, by rw [hr0]; exact t1, L, fun limit hl => ⟨rows, cols, line, ?_, ?_, ?_, ?_, ?_, ?_, ?_, ?_⟩⟩
  · obtain ⟨text', t1', t2⟩ := exported_sample_reads_back _ fields db samples clusters table x1 limit
      (fun s hs => (hL _ (by simp) s hs).trans hl) (fun row hrow x hx =>
        (hL (row.map cellWritten) (by simp only [List.mem_cons, List.mem_map]; exact .inr ⟨row, hrow, rfl⟩) _
          (List.mem_map.2 ⟨x, hx, rfl⟩)).trans hl)
    rw [t1] at t1'
    cases t1'
    rw [t2]
    have := congrArg (List.map (Except.ok (ε := Err))) hlines
    rw [List.map_map, List.map_map] at this
    rw [show (fun e => Except.ok (line e)) = (Except.ok (ε := Err)) ∘ line from rfl, ← this]
    rfl
  · intro e
    refine ⟨_, rfl, ?_⟩
    rw [List.forall₂_map_right_iff, List.forall₂_same]
    intro c _
    by_cases h : CoveredBy db c e.2
    · exact .inl ⟨if_pos h, h⟩
    · exact .inr ⟨if_neg h, h⟩
  · rw [hrows, List.map_flatMap]
    simp only [List.map_map, Function.comp_def, List.map_id']
    rw [List.nodup_flatMap]
    refine ⟨fun e _ => Bitmap.elems_nodup _, ?_⟩
    have hp' : samples.Pairwise (fun a b => a.1 ≠ b.1) := by
      have := hns
      unfold Dict.keys at this
      exact List.pairwise_map.1 this
    refine hp'.imp_of_mem ?_
    intro a b ha hb hab x hxa hxb
    rw [Bitmap.mem_elems] at hxa hxb
    exact Finset.disjoint_left.1 (s7 a.1 a.2 b.1 b.2 (Dict.get?_of_mem hns ha) (Dict.get?_of_mem hns hb) hab) hxa hxb
  · rintro ⟨c, d⟩ he
    obtain ⟨S, hS, hdS⟩ := (hpairs c d).1 he
    exact s6 c S hS d hdS
  · have h1 : cols.Pairwise (· ≤ ·) := List.pairwise_insertionSort _ _
    have h2 : cols.Nodup := (List.perm_insertionSort _ _).nodup_iff.2 s10
    exact (h1.and h2).imp (fun h => lt_of_le_of_ne h.1 h.2)
  · intro c
    rw [hcol, ← Dict.get?_isSome]
    constructor
    · rintro ⟨S, hS⟩
      obtain ⟨d, hd'⟩ := s11 c S hS
      obtain ⟨h1, c', S', h2, h3⟩ := (s12 c d).1 ⟨S, hS, hd'⟩
      exact ⟨(c', d), (hpairs c' d).2 ⟨S', h2, h3⟩, h1⟩
    · rintro ⟨⟨c', d⟩, he, h1⟩
      obtain ⟨S', h2, h3⟩ := (hpairs c' d).1 he
      obtain ⟨S, hS, -⟩ := (s12 c d).2 ⟨h1, c', S', h2, h3⟩
      exact ⟨S, hS⟩
  · intro hk c
    rw [sample_count c samples hns]
    cases hg : Dict.get? samples c with
    | none => simp; omega
    | some S => exact s8 c S hg hk
  · intro c d hcov'
    have hc : c ∈ order := by
      rw [s4]
      refine ⟨?_, .inl rfl⟩
      obtain ⟨g, hg, -⟩ := hcov'
      exact (hasCluster_iff_assign hset c).2 ⟨g, hg⟩
    obtain ⟨S, hS⟩ := (Dict.get?_isSome samples c).2 (by rw [s2]; exact hc)
    obtain ⟨pre, post, ho⟩ := List.append_of_mem hc
    by_cases hlt : k ≤ 0 ∨ (S.card : Int) < k
    · left
      rcases s9 pre c post S ho hS hlt d hcov' with h | ⟨c', -, S', hS', h⟩
      · exact ⟨(c, d), (hpairs c d).2 ⟨S, hS, h⟩, rfl⟩
      · exact ⟨(c', d), (hpairs c' d).2 ⟨S', hS', h⟩, rfl⟩
    · right
      rw [not_or] at hlt
      have := s8 c S hS (by omega)
      rw [sample_count c samples hns, hS]
      exact ⟨by omega, by simp only [Option.getD_some]; omega⟩

/-- The exported sample of a model of any corpus whose documents can be rendered. -/
theorem any_to_sample (hs : Serves corpus content) (cfg : IndexCfg) (hi : Indexable corpus content cfg.positions)
    (hne : corpus.keys ≠ []) (s : Schedule) (hf : Fair s) (hno : ∀ i, s.fault i = none) (f : File) (hu : Usable f)
    (luck : Luck Rat) (hscore : luck.score = exactScorer luck.chance) (hshuffle : ∀ l, (luck.shuffle l).Perm l)
    (args : ModelArgs) (confirm : Bool) (hm : f.data.clusters = [] ∨ (args.restart = true ∧ confirm = true))
    (hn : ∀ k, args.clusters = some k → 0 ≤ k) (hit : 1 ≤ args.iterations) (hk : 1 ≤ args.groupTopK)
    (hfields : args.fields.Nodup)
    (render : List Val → Except Err (List (Val × Rendered))) (shown : Val → Rendered) (fields : List String)
    (hrender : ∀ ks, (∀ k ∈ ks, k ∈ corpus.keys) → render ks = .ok (ks.map (fun k => (k, shown k))))
    (hnames : ∀ n ∈ fields, n ≠ "doc_key" ∧ n ≠ "sampled_cluster" ∧ ∀ c, n ≠ clusterColumn c)
    (hshown : ∀ k c, Dict.get? (shown k) (clusterColumn c) = none)
    (visitC : List ClusterRow → List ClusterRow) (hv : AnyOrder visitC)
    (pick : Int → Nat → Nat → List Nat) (hp : ∀ c, Draws (pick c)) (k : Int) :
    let indexed := Pipeline.onIndex f (indexCall corpus cfg s)
    let modelled := Pipeline.model luck args confirm indexed.1
    let sampled := Pipeline.sampleWith render fields visitC pick k modelled.1
    let has := fun (c : Int) (key : Val) => ∃ fl v, HasValue content key fl v ∧ ValueIn modelled.1.data fl v c
    sampled.1.data = modelled.1.data ∧
    ∃ text, sampled.2 = .ok text ∧ ∃ L, ∀ limit, L ≤ limit →
      ∃ (rows : List (Int × Val)) (cols : List Int) (cells : Int × Val → List String),
        Csv.read limit false {} text = .ok (["doc_key", "sampled_cluster"] ++ fields ++ cols.map clusterColumn) ::
          rows.map (fun e => .ok (cells e)) ∧
        (∀ e ∈ rows, ∃ marks, cells e = [written e.2, toString e.1] ++ fields.map (fun n => cellWritten (Dict.get? (shown e.2) n)) ++ marks ∧
          List.Forall₂ (fun c m => (m = "1" ∧ has c e.2) ∨ (m = "" ∧ ¬ has c e.2)) cols marks) ∧
        (rows.map (·.2)).Nodup ∧ (∀ e ∈ rows, e.2 ∈ corpus.keys ∧ has e.1 e.2) ∧
        cols.Pairwise (· < ·) ∧ (∀ c, c ∈ cols ↔ ∃ e ∈ rows, has c e.2) ∧
        (0 < k → ∀ c, (rows.countP (fun e => e.1 = c) : Int) ≤ k) ∧
        (∀ c, ∀ key ∈ corpus.keys, has c key → (∃ e ∈ rows, e.2 = key) ∨ (0 < k ∧ (rows.countP (fun e => e.1 = c) : Int) = k)) := by
  classical
  intro indexed modelled sampled has
  obtain ⟨-, -, hu2, hid, o2, i3, -, i5, -⟩ := any_modelled hs cfg hi hne s hf hno f hu
    luck hscore hshuffle args confirm hm hn hit hk hfields
  set db2 := modelled.1.data with hdb2
  have hw := o2.toWellformed
  have hcov : ∀ c d, CoveredBy db2 c d ↔ ∃ key, corpus.keys[d]? = some key ∧ has c key := by
    intro c d
    constructor
    · rintro ⟨fid, h1, h2⟩
      rw [DB.docsOf] at h2
      split at h2
      · rename_i row hrow
        obtain ⟨h3, h4⟩ := (feature?_eq_some hw fid row).1 hrow
        obtain ⟨key, e1, e2⟩ := (i3 row h3 d).1 h2
        exact ⟨key, e1, row.field, row.value, e2, row, h3, rfl, rfl, by rw [h4]; exact h1⟩
      · simp at h2
    · rintro ⟨key, h1, fl, v, h2, row, h3, rfl, rfl, e3⟩
      refine ⟨row.fid, e3, ?_⟩
      rw [DB.docsOf, (feature?_eq_some hw row.fid row).2 ⟨h3, rfl⟩]
      exact (i3 row h3 d).2 ⟨key, h1, h2⟩
  set key : Nat → Val := fun d => corpus.keys.getD d (.int 0) with hkeydef
  have hkeyof : ∀ d x, corpus.keys[d]? = some x → x = key d := by
    intro d x h
    simp only [hkeydef, List.getD_eq_getElem?_getD, h, Option.getD_some]
  obtain ⟨text, h2, L, h3⟩ := sample_written render shown fields db2 o2
    (fun ks hks => hrender ks (fun x hx => by obtain ⟨d, hd⟩ := hks x hx; exact List.mem_of_getElem? ((i5 d x).1 hd)))
    hnames hshown key (fun d x h => hkeyof d x ((i5 d x).1 h))
    (fun c d h => by obtain ⟨x, hx, -⟩ := (hcov c d).1 h; exact ⟨x, (i5 d x).2 hx⟩) visitC hv pick hp k
  have hsampled : sampled = ({ opened Faults.none modelled.1 with data := db2 }, .ok text) := by
    show Pipeline.sampleWith render fields visitC pick k modelled.1 = _
    rw [Pipeline.sampleWith, if_pos hid, onIndex_usable _ hu2]
    dsimp only
    rw [show (Conn.fresh modelled.1.data).work = db2 from rfl, h2]
    rfl
  rw [hsampled]
  refine ⟨rfl, text, rfl, L, fun limit' hl => ?_⟩
  obtain ⟨rows, cols, cells, r1, r0, r2, r3, r4, r5, r6, r7⟩ := h3 limit' hl
  have hat : ∀ e ∈ rows, corpus.keys[e.2]? = some (key e.2) := by
    intro e he
    obtain ⟨x, hx, -⟩ := (hcov e.1 e.2).1 (r3 e he)
    rw [← hkeyof _ x hx]; exact hx
  have hhas : ∀ c, ∀ e ∈ rows, CoveredBy db2 c e.2 ↔ has c (key e.2) := by
    intro c e he
    rw [hcov]
    constructor
    · rintro ⟨x, hx, h⟩
      rw [hkeyof _ x hx] at h; exact h
    · intro h; exact ⟨_, hat e he, h⟩
  have hnk : corpus.keys.Nodup := hs.keys
  have hcount : ∀ c, (rows.map (fun e => (e.1, key e.2))).countP (fun e => e.1 = c) = rows.countP (fun e => e.1 = c) := by
    intro c
    rw [List.countP_map]
    rfl
  have hback : ∀ e ∈ rows, ((e.1, corpus.keys.idxOf (key e.2)) : Int × Nat) = e := by
    intro e he
    have h1 := hat e he
    obtain ⟨h2, h3⟩ := List.getElem?_eq_some_iff.1 h1
    rw [← h3, hnk.idxOf_getElem]
  refine ⟨rows.map (fun e => (e.1, key e.2)), cols, fun e => cells (e.1, corpus.keys.idxOf e.2), ?_, ?_, ?_, ?_, r4, ?_, ?_, ?_⟩
  · rw [r1, List.map_map]
    congr 1
    apply List.map_congr_left
    intro e he
    simp only [Function.comp]
    rw [hback e he]
  · intro e he
    obtain ⟨e', he', rfl⟩ := List.mem_map.1 he
    dsimp only
    rw [hback e' he']
    obtain ⟨marks, m1, m2⟩ := r0 e'
    refine ⟨marks, m1, m2.imp ?_⟩
    intro c m h
    rw [hhas c e' he'] at h
    exact h
  · rw [List.map_map]
    have : rows.map ((·.2) ∘ fun e => (e.1, key e.2)) = (rows.map (·.2)).map key := by rw [List.map_map]; rfl
    rw [this]
    refine r2.map_on ?_
    intro a ha b hb hab
    obtain ⟨e, he, rfl⟩ := List.mem_map.1 ha
    obtain ⟨e', he', rfl⟩ := List.mem_map.1 hb
    have h1 := hback e he
    have h2 := hback e' he'
    rw [hab] at h1
    have := congrArg Prod.snd h1
    have h3 := congrArg Prod.snd h2
    dsimp only at this h3
    exact this.symm.trans h3
  · intro e he
    obtain ⟨e', he', rfl⟩ := List.mem_map.1 he
    exact ⟨List.mem_of_getElem? (hat e' he'), (hhas _ e' he').1 (r3 e' he')⟩
  · intro c
    rw [r5]
    constructor
    · rintro ⟨e, he, h⟩; exact ⟨_, List.mem_map.2 ⟨e, he, rfl⟩, (hhas c e he).1 h⟩
    · rintro ⟨e, he, h⟩
      obtain ⟨e', he', rfl⟩ := List.mem_map.1 he
      exact ⟨e', he', (hhas c e' he').2 h⟩
  · intro hk c
    rw [hcount]; exact r6 hk c
  · intro c x hx h
    obtain ⟨d, hd⟩ := List.getElem?_of_mem hx
    rw [hcount]
    rcases r7 c d ((hcov c d).2 ⟨x, hd, h⟩) with ⟨e, he, rfl⟩ | h'
    · exact .inl ⟨_, List.mem_map.2 ⟨e, he, rfl⟩, (hkeyof _ x hd).symm⟩
    · exact .inr h'

end Hyperreal.Props
