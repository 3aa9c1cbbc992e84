import Verif.Lemmas.Phase1

namespace Hyperreal
open Spec DB

section
variable {corpus : Corpus} {content : Val → Features} {cfg : IndexCfg} {s : Schedule} {db : DB}

theorem mem_tempKeys (hf : Fair s) (k : String × Val) :
    k ∈ tempKeys corpus cfg s ↔ k ∈ (tempSegs corpus cfg s).map (fun r => (r.field, r.value)) := by
  rw [tempKeys, (hf.groups _).mem_iff, List.mem_dedup]

theorem reindexed_features : (reindexed corpus cfg s db).features = (afterMerge corpus cfg s db).features := rfl

/-- The documents and counts of a feature after reindexing. -/
theorem reindexed_row (hs : Serves corpus content) (hi : Indexable corpus content cfg.positions) (hf : Fair s)
    (hw : Wellformed db) {r : FeatRow} (hr : r ∈ (reindexed corpus cfg s db).features) :
    r.docsCount = r.docs.card ∧ ∀ d, d ∈ r.docs ↔ Occurs corpus content r.field r.value d := by
  have ht := tempOk corpus content cfg s hs hi hf
  rcases (merged corpus cfg s hw).row r hr with ⟨h1, h2, h3⟩ | ⟨h1, h2⟩
  · refine ⟨?_, fun d => ?_⟩
    · rw [h2, h3]; exact group_card _ _ ht.segs_disjoint ht.segs_count
    · rw [h3]; exact ht.group_docs r.field r.value d
  · have hz : r.docsCount = 0 ∧ r.docs = ∅ := by
      obtain ⟨r', -, e⟩ := List.mem_map.1 (h2 : r ∈ db.zeroFeatures.features)
      rw [← e]; exact ⟨rfl, rfl⟩
    refine ⟨by simp [hz.1, hz.2], fun d => ?_⟩
    rw [hz.2]
    constructor
    · intro h; simp at h
    · intro h
      exact absurd ((mem_tempKeys hf r.key).2 ((ht.occurs_iff_key r.field r.value).2 ⟨d, h⟩)) h1

theorem reindexed_ids (hw : Wellformed db) : ((reindexed corpus cfg s db).features.map (·.fid)).Nodup :=
  (merged corpus cfg s hw).ids

theorem reindexed_keys (hw : Wellformed db) : ((reindexed corpus cfg s db).features.map (·.key)).Nodup :=
  (merged corpus cfg s hw).keys

theorem feature?_of_mem {d : DB} (hn : (d.features.map (·.fid)).Nodup) {r : FeatRow} (hr : r ∈ d.features) :
    d.feature? r.fid = some r := by
  cases h : d.feature? r.fid with
  | none =>
    rw [feature?, List.find?_eq_none] at h
    exact absurd (h r hr) (by simp)
  | some r' =>
    have h1 := List.mem_of_find?_eq_some h
    have h2 := List.find?_some h
    simp only [decide_eq_true_eq] at h2
    rw [eq_of_fid hn h1 hr h2]

theorem reindexed_isIndex (hs : Serves corpus content) (hi : Indexable corpus content cfg.positions) (hf : Fair s)
    (hw : Wellformed db) : IsIndexOf corpus content (reindexed corpus cfg s db) := by
  have ht := tempOk corpus content cfg s hs hi hf
  have hM := merged corpus cfg s hw
  have hdk : (reindexed corpus cfg s db).docKeys = enumKeys corpus.keys := by
    show (afterMerge corpus cfg s db).docKeys = _
    rw [hM.rest]
  constructor
  · intro d k; rw [hdk]; exact mem_enumKeys corpus.keys (d, k)
  · rw [hdk, enumKeys_ids]; exact List.nodup_range
  · intro f v d
    cases h : (reindexed corpus cfg s db).features.find? (fun r => r.field = f ∧ r.value = v) with
    | some r =>
      obtain ⟨h1, h2⟩ := (find?_key_iff (reindexed_keys hw) (f, v) r).1 h
      simp only [docsOfKey, h]
      rw [(reindexed_row hs hi hf hw h1).2 d]
      simp only [FeatRow.key, Prod.mk.injEq] at h2
      rw [h2.1, h2.2]
    | none =>
      simp only [docsOfKey, h, Finset.notMem_empty, false_iff]
      intro ho
      obtain ⟨r, hr, e⟩ := hM.present (f, v) ((mem_tempKeys hf _).2 ((ht.occurs_iff_key f v).2 ⟨d, ho⟩))
      exact (find?_key_none (f, v)).1 h r hr e
  · intro r hr d
    rw [docsOf, feature?_of_mem (reindexed_ids hw) hr]
    exact (reindexed_row hs hi hf hw hr).2 d

theorem reindexed_fc : (reindexed corpus cfg s db).fc = (afterMerge corpus cfg s db).fc.map
    (fun r => { r with docsCount := (((afterMerge corpus cfg s db).feature? r.fid).map (·.docsCount)).getD 0 }) := rfl

theorem reindexed_preserves (hw : Wellformed db) : Reindexed db (reindexed corpus cfg s db) := by
  have hM := merged corpus cfg s hw
  have hz : ∀ r ∈ db.features, ∃ r' ∈ db.zeroFeatures.features, r'.fid = r.fid ∧ r'.key = r.key := fun r hr =>
    ⟨_, List.mem_map.2 ⟨r, hr, rfl⟩, rfl, rfl⟩
  have hz' : ∀ r ∈ db.zeroFeatures.features, ∃ r' ∈ db.features, r.fid = r'.fid ∧ r.key = r'.key := by
    intro r hr
    obtain ⟨r', h, rfl⟩ := List.mem_map.1 hr
    exact ⟨r', h, rfl, rfl⟩
  constructor
  · intro r hr
    obtain ⟨r0, h0, e1, e2⟩ := hz r hr
    obtain ⟨r', h', e3, e4⟩ := hM.kept r0 h0
    have := e4.trans e2
    simp only [FeatRow.key, Prod.mk.injEq] at this
    exact ⟨r', h', e3.trans e1, this.1, this.2⟩
  · intro r' hr'
    rcases hM.fresh r' hr' with ⟨r0, h0, e1, e2⟩ | h
    · obtain ⟨r, hr, e3, e4⟩ := hz' r0 h0
      have := e2.trans e4
      simp only [FeatRow.key, Prod.mk.injEq] at this
      exact Or.inl ⟨r, hr, e1.trans e3, this.1, this.2⟩
    · right
      intro r hr
      obtain ⟨r0, h0, e1, e2⟩ := hz r hr
      have := h r0 h0
      rw [e1, e2] at this
      exact ⟨this.1, fun e => this.2 (by simp [FeatRow.key, e.1, e.2])⟩
  · rw [reindexed_fc, List.map_map, hM.rest]; rfl

theorem reindexed_clusters (hw : Wellformed db) : (reindexed corpus cfg s db).clusters = db.clusters := by
  show (afterMerge corpus cfg s db).clusters = _
  rw [(merged corpus cfg s hw).rest]; rfl

theorem afterMerge_fc (hw : Wellformed db) : (afterMerge corpus cfg s db).fc = db.fc := by
  rw [(merged corpus cfg s hw).rest]; rfl

/-- After the first transaction every cluster is pending and everything else is in order. -/
theorem reindexed_pending (hs : Serves corpus content) (hi : Indexable corpus content cfg.positions) (hf : Fair s)
    (hw : Wellformed db) : Pending (reindexed corpus cfg s db) := by
  have hP : Reindexed db (reindexed corpus cfg s db) := reindexed_preserves hw
  have hfid : (reindexed corpus cfg s db).fc.map (·.fid) = db.fc.map (·.fid) := by
    have := congrArg (List.map (fun x : Nat × Int × Bool => x.1)) hP.model
    simpa [List.map_map, Function.comp_def] using this
  refine ⟨⟨reindexed_ids hw, reindexed_keys hw, fun f hf' => (reindexed_row hs hi hf hw hf').1, ?_, ?_, ?_, ?_⟩, ?_, ?_⟩
  · rw [hfid]; exact hw.oneCluster
  · rw [reindexed_clusters hw]; exact hw.clusterIds
  · intro r hr
    rw [reindexed_fc, afterMerge_fc hw] at hr
    obtain ⟨r0, h0, rfl⟩ := List.mem_map.1 hr
    obtain ⟨f, hf', e, -⟩ := hw.knownFeature r0 h0
    obtain ⟨f', hf'', e', -⟩ := hP.kept f hf'
    refine ⟨f', hf'', e'.trans e, ?_⟩
    have : (afterMerge corpus cfg s db).feature? r0.fid = some f' := by
      rw [← e, ← e']; exact feature?_of_mem (reindexed_ids (corpus := corpus) (cfg := cfg) (s := s) hw) hf''
    simp [this]
  · intro r hr
    rw [reindexed_fc, afterMerge_fc hw] at hr
    obtain ⟨r0, h0, rfl⟩ := List.mem_map.1 hr
    rw [reindexed_clusters hw]
    exact hw.knownCluster r0 h0
  · intro k hk hno
    rw [reindexed_clusters hw] at hk
    exact absurd (List.mem_map.2 ⟨k, hk, rfl⟩) hno
  · intro c hc
    obtain ⟨k, hk, e⟩ := List.mem_map.1 hc
    exact ⟨k, by rw [reindexed_clusters hw]; exact hk, e⟩

end
end Hyperreal
