import Verif.Lemmas.Query
import Verif.Lemmas.Moves
import Verif.Lemmas.Scoring
import Verif.Props.Store
import Verif.Props.Utilities

/-!
# Properties of reading the index and the model (C04, C34, C35, C49, C51, C54)
-/

namespace Hyperreal.Props
open Spec Atomic DB

/-! ## A concrete index with a model -/

/-- Six features over three documents, in two fields; the last one no longer occurs. -/
def queryIndex : DB :=
  { docKeys := [(0, .text "k0"), (1, .text "k1"), (2, .text "k2")]
    features := [⟨1, "t", .text "b", 2, {0, 1}⟩, ⟨2, "t", .text "a", 2, {1, 2}⟩, ⟨3, "t", .text "c", 1, {2}⟩,
                 ⟨4, "n", .int 5, 2, {0, 2}⟩, ⟨5, "n", .int 3, 1, {1}⟩, ⟨6, "t", .text "z", 0, ∅⟩]
    fieldSummary := [] }

theorem queryIndex_settled : Settled queryIndex where
  featureIds := by decide
  featureKeys := by decide
  counts := by decide
  oneCluster := by decide
  clusterIds := by decide
  knownFeature := by simp [queryIndex]
  knownCluster := by simp [queryIndex]
  summaries := by simp [queryIndex]
  nothingPending := rfl

/-- The index after creating the clusters 1 = {1, 2}, 2 = {3, 4}, 3 = {5, 6}. -/
def queryDb : DB :=
  (runOps [(.create [1, 2], none), (.create [3, 4], none), (.create [5, 6], none)] (Conn.fresh queryIndex)).committed

theorem queryDb_settled : Settled queryDb :=
  (model_always_settled _ (by intro op h; fin_cases h <;> trivial) _ queryIndex_settled).1

/-- The model of the example, computed. -/
theorem queryDb_model : queryDb.fc.map (fun r => (r.fid, r.cid)) = [(1, 1), (2, 1), (3, 2), (4, 2), (5, 3), (6, 3)] ∧
    queryDb.clusters.map (fun k => (k.cid, k.docsCount)) = [(1, 3), (2, 2), (3, 1)] := by decide +kernel

/-! ## C04 -/

theorem unionBitslice_ids (db : DB) (fids : List Nat) :
    unionBitslice db (fids.map .id) = .ok (computeBitslice (fids.map db.docsOf)) := by
  have : ∀ l : List Nat, (l.map FeatureRef.id).mapM (bitmapFor db) = .ok (l.map db.docsOf) := by
    intro l
    induction l with
    | nil => rfl
    | cons a l ih => rw [List.map_cons, List.mapM_cons, ih]; rfl
  rw [unionBitslice, this]; rfl

/-- **C04.** For every cluster of a model at rest, in whatever order SQLite lists its features: the documents returned by
`cluster_query` are those of `cluster_docs` and those matching some feature of the cluster, and the bit slice counts for
every document the features of the cluster matching it.  (`2^62` is the default limit of `cluster_features`.) -/
theorem cluster_query_agrees (visit : List Listed → List Listed) (hv : AnyOrder visit) (db : DB) (hs : Settled db)
    (c : Int) (hc : hasCluster db c) (hsize : (featuresIn db c).length ≤ 2 ^ 62) :
    ∃ M S, clusterQuery visit db c = .ok (M, S) ∧ clusterDocs db c = .ok M ∧
      (∀ d, d ∈ M ↔ ∃ f, assign db f = some c ∧ d ∈ db.docsOf f) ∧
      ∀ d, weight S d = (featuresIn db c).countP (fun f => d ∈ db.docsOf f) := by
  obtain ⟨D, hD, hD'⟩ := clusterDocs_spec hs c hc
  have hw := hs.toWellformed
  have hfid : ((clusterFeatures visit db c).map (·.fid)).Perm (featuresIn db c) := by
    rw [← clusterRows_fids hw]
    refine (clusterFeatures_perm hv db c _ ?_).map _
    rw [← List.length_map (f := Listed.fid), clusterRows_fids hw]; exact hsize
  have hq : clusterQuery visit db c = .ok (computeBitslice (((clusterFeatures visit db c).map (·.fid)).map db.docsOf)) := by
    rw [clusterQuery, ← unionBitslice_ids, List.map_map]; rfl
  obtain ⟨h1, h2⟩ := compute_bitslice_counts (((clusterFeatures visit db c).map (·.fid)).map db.docsOf)
  have hM : (computeBitslice (((clusterFeatures visit db c).map (·.fid)).map db.docsOf)).1 = D := by
    ext d
    rw [h1, hD', CoveredBy]
    constructor
    · rintro ⟨b, hb, hd⟩
      obtain ⟨f, hf, rfl⟩ := List.mem_map.1 hb
      exact ⟨f, (mem_featuresIn hw _ _).1 (hfid.mem_iff.1 hf), hd⟩
    · rintro ⟨f, hf, hd⟩
      exact ⟨_, List.mem_map.2 ⟨f, hfid.mem_iff.2 ((mem_featuresIn hw _ _).2 hf), rfl⟩, hd⟩
  refine ⟨D, _, by rw [hq, ← hM], hD, hD', ?_⟩
  intro d
  rw [h2, Spec.multiplicity, List.countP_map, hfid.countP_eq]
  rfl

/-- In the example document 1 is in both features of cluster 1. -/
example : (clusterQuery List.reverse queryDb 1).toOption.map (fun x => (x.1, weight x.2 1, weight x.2 0)) =
      some ({0, 1, 2}, 2, 1) ∧
    hasCluster queryDb 1 ∧ (featuresIn queryDb 1).length ≤ 2 ^ 62 := by
  refine ⟨by decide +kernel, ?_, by decide +kernel⟩
  have : 1 ∈ queryDb.clusters.map (fun k => k.cid) := by decide +kernel
  obtain ⟨k, h1, h2⟩ := List.mem_map.1 this
  exact ⟨k, h1, h2⟩

/-! ## C51 -/

/-- **C51** for `cluster_features(c, k)`: the `k` most frequent features of the cluster, each once, in descending order of
frequency, with the frequencies, fields and values of the index. -/
theorem cluster_features_listing (visit : List Listed → List Listed) (hv : AnyOrder visit) (db : DB) (hs : Settled db)
    (c : Int) (k : Nat) :
    IsListing (·.fid) (·.docsCount) db c k (clusterFeatures visit db c k) ∧
      ∀ x ∈ clusterFeatures visit db c k, ∃ r ∈ db.features, r.fid = x.fid ∧ r.field = x.field ∧ r.value = x.value := by
  have hw := hs.toWellformed
  have hp := listing_perm hv db c
  have hsort := orderDesc_sorted (fun x : Listed => x.docsCount) (visit (clusterRows db c))
  unfold clusterFeatures
  set L := orderDesc (fun x : Listed => x.docsCount) (visit (clusterRows db c)) with hL
  have hfid : (L.map (·.fid)).Perm (featuresIn db c) := by rw [← clusterRows_fids hw]; exact hp.map _
  have hmem : ∀ x ∈ L.take k, x ∈ clusterRows db c := fun x hx => hp.mem_iff.1 (List.mem_of_mem_take hx)
  refine ⟨⟨?_, ?_, ?_, ?_, ?_, ?_⟩, ?_⟩
  · rw [List.length_take, ← hfid.length_eq, List.length_map]
  · exact ((List.take_sublist k L).map _).nodup (hfid.nodup_iff.2 (featuresIn_nodup hw c))
  · intro x hx; exact ((mem_clusterRows hw c x).1 (hmem x hx)).1
  · intro x hx; exact ((mem_clusterRows hw c x).1 (hmem x hx)).2.2
  · exact hsort.sublist (List.take_sublist k L)
  · intro f hf hn x hx
    have hfL : f ∈ L.map (·.fid) := hfid.mem_iff.2 ((mem_featuresIn hw _ _).2 hf)
    obtain ⟨y, hy, rfl⟩ := List.mem_map.1 hfL
    have hyd : y ∈ L.drop k := by
      rcases List.mem_append.1 (by rw [List.take_append_drop]; exact hy : y ∈ L.take k ++ L.drop k) with h | h
      · exact absurd (List.mem_map.2 ⟨y, h, rfl⟩) hn
      · exact h
    have := (List.pairwise_append.1 (by rw [List.take_append_drop]; exact hsort :
      (L.take k ++ L.drop k).Pairwise (fun a b => b.docsCount ≤ a.docsCount))).2.2 x hx y hyd
    rw [← ((mem_clusterRows hw c y).1 (hp.mem_iff.1 hy)).2.2]
    exact this
  · intro x hx; exact ((mem_clusterRows hw c x).1 (hmem x hx)).2.1

/-- **C51** for `top_cluster_features(k)`: every cluster once, in descending order of document count, with that count and
the `k` most frequent features. -/
theorem top_cluster_features_listing (visitC : List ClusterRow → List ClusterRow) (hvC : AnyOrder visitC)
    (visit : List Listed → List Listed) (hv : AnyOrder visit) (db : DB) (hs : Settled db) (k : Nat) :
    ((topClusterFeatures visitC visit db k).map (·.1)).Nodup ∧
    (∀ c, c ∈ (topClusterFeatures visitC visit db k).map (·.1) ↔ hasCluster db c) ∧
    (topClusterFeatures visitC visit db k).Pairwise (fun a b => b.2.1 ≤ a.2.1) ∧
    ∀ x ∈ topClusterFeatures visitC visit db k,
      (∃ D, clusterDocs db x.1 = .ok D ∧ x.2.1 = D.card ∧ ∀ d, d ∈ D ↔ CoveredBy db x.1 d) ∧
      IsListing (·.fid) (·.docsCount) db x.1 k x.2.2 := by
  have hp : (orderDesc (fun k : ClusterRow => k.docsCount) (visitC db.clusters)).Perm db.clusters :=
    (orderDesc_perm _ _).trans (hvC _)
  have hids : ((topClusterFeatures visitC visit db k).map (·.1)).Perm (db.clusters.map (·.cid)) := by
    rw [topClusterFeatures, List.map_map]
    exact hp.map _
  refine ⟨hids.nodup_iff.2 hs.clusterIds, ?_, ?_, ?_⟩
  · intro c; rw [hids.mem_iff]
    constructor
    · intro h; obtain ⟨r, h1, h2⟩ := List.mem_map.1 h; exact ⟨r, h1, h2⟩
    · rintro ⟨r, h1, h2⟩; exact List.mem_map.2 ⟨r, h1, h2⟩
  · rw [topClusterFeatures, List.pairwise_map]
    exact orderDesc_sorted (fun k : ClusterRow => k.docsCount) _
  · intro x hx
    obtain ⟨r, hr, rfl⟩ := List.mem_map.1 hx
    have hr' := hp.mem_iff.1 hr
    refine ⟨?_, (cluster_features_listing visit hv db hs r.cid k).1⟩
    obtain ⟨D, h1, h2⟩ := clusterDocs_spec hs r.cid ⟨r, hr', rfl⟩
    obtain ⟨D', e1, e2, -⟩ := (hs.summaries r hr').docs
    have : D' = D := by
      rw [clusterDocs, find?_cluster hs.toWellformed hr'] at h1
      simpa [e1] using h1
    subst this
    exact ⟨D', h1, e2, h2⟩

/-- **C51** for exporting all clusters (`export clusters --top-k-features 0`): the rows list every feature of the model
exactly once, with its cluster, field, value and document count. -/
theorem export_clusters_complete (visitC : List ClusterRow → List ClusterRow) (hvC : AnyOrder visitC)
    (visit : List Listed → List Listed) (hv : AnyOrder visit) (db : DB) (hs : Settled db)
    (hsize : ∀ c, (featuresIn db c).length ≤ 2 ^ 62) :
    ((exportClusters visitC visit db 0).map (fun x => x.2.fid)).Nodup ∧
    (∀ f c, (∃ x ∈ exportClusters visitC visit db 0, x.1 = c ∧ x.2.fid = f) ↔ assign db f = some c) ∧
    ∀ x ∈ exportClusters visitC visit db 0, x.2.docsCount = (db.docsOf x.2.fid).card ∧
      ∃ r ∈ db.features, r.fid = x.2.fid ∧ r.field = x.2.field ∧ r.value = x.2.value := by
  have hw := hs.toWellformed
  have hp : (orderDesc (fun k : ClusterRow => k.docsCount) (visitC db.clusters)).Perm db.clusters :=
    (orderDesc_perm _ _).trans (hvC _)
  have hE : exportClusters visitC visit db 0 = (orderDesc (fun k : ClusterRow => k.docsCount) (visitC db.clusters)).flatMap
      (fun k => (clusterFeatures visit db k.cid).map (fun f => (k.cid, f))) := by
    simp only [exportClusters, topClusterFeatures, if_true, List.flatMap_map]
  have hrow : ∀ c, (clusterFeatures visit db c).Perm (clusterRows db c) := by
    intro c
    apply clusterFeatures_perm hv
    rw [← List.length_map (f := Listed.fid), clusterRows_fids hw]; exact hsize c
  have hmem : ∀ x, x ∈ exportClusters visitC visit db 0 ↔ hasCluster db x.1 ∧ x.2 ∈ clusterRows db x.1 := by
    intro x
    rw [hE, List.mem_flatMap]
    constructor
    · rintro ⟨k, hk, hx⟩
      obtain ⟨f, hf, rfl⟩ := List.mem_map.1 hx
      exact ⟨⟨k, hp.mem_iff.1 hk, rfl⟩, (hrow _).mem_iff.1 hf⟩
    · rintro ⟨⟨k, hk, e⟩, hx⟩
      refine ⟨k, hp.mem_iff.2 hk, List.mem_map.2 ⟨x.2, (hrow _).mem_iff.2 (by rw [e]; exact hx), ?_⟩⟩
      rw [e]
  refine ⟨?_, ?_, ?_⟩
  · rw [hE, List.map_flatMap, List.nodup_flatMap]
    constructor
    · intro k _
      rw [List.map_map]
      have : (List.map ((fun x : Int × Listed => x.2.fid) ∘ fun f => (k.cid, f)) (clusterFeatures visit db k.cid)) =
          (clusterFeatures visit db k.cid).map (·.fid) := by apply List.map_congr_left; intros; rfl
      rw [this, ((hrow k.cid).map _).nodup_iff, clusterRows_fids hw]
      exact featuresIn_nodup hw _
    · have hnd : (orderDesc (fun k : ClusterRow => k.docsCount) (visitC db.clusters)).Pairwise (fun a b => a.cid ≠ b.cid) := by
        have := (hp.map (·.cid)).nodup_iff.2 hs.clusterIds
        rw [List.Nodup, List.pairwise_map] at this
        exact this
      refine hnd.imp ?_
      intro a b hab
      rw [Function.onFun, List.disjoint_left]
      intro f hf hf'
      rw [List.map_map, List.mem_map] at hf hf'
      obtain ⟨x, hx, rfl⟩ := hf
      obtain ⟨y, hy, e⟩ := hf'
      have h1 := ((mem_clusterRows hw _ _).1 ((hrow _).mem_iff.1 hx)).1
      have h2 := ((mem_clusterRows hw _ _).1 ((hrow _).mem_iff.1 hy)).1
      simp only [Function.comp] at e
      rw [e, h1] at h2
      exact hab (Option.some.inj h2)
  · intro f c
    constructor
    · rintro ⟨x, hx, rfl, rfl⟩
      exact ((mem_clusterRows hw _ _).1 ((hmem x).1 hx).2).1
    · intro h
      have hf : f ∈ (clusterRows db c).map (·.fid) := by rw [clusterRows_fids hw]; exact (mem_featuresIn hw _ _).2 h
      obtain ⟨y, hy, rfl⟩ := List.mem_map.1 hf
      exact ⟨(c, y), (hmem _).2 ⟨(hasCluster_iff_assign hs c).2 ⟨_, h⟩, hy⟩, rfl, rfl⟩
  · intro x hx
    have := (mem_clusterRows hw _ _).1 ((hmem x).1 hx).2
    exact ⟨this.2.2, this.2.1⟩

/-- The example: cluster 1 has the most documents, its features have the same frequency (so either may come first); the
export lists all six features. -/
example : (clusterFeatures List.reverse queryDb 1 1).map (·.fid) = [2] ∧ (clusterFeatures id queryDb 1 1).map (·.fid) = [1] ∧
    (topClusterFeatures id id queryDb 20).map (fun x => (x.1, x.2.1, x.2.2.map (·.fid))) =
      [(1, 3, [1, 2]), (2, 2, [4, 3]), (3, 1, [5, 6])] ∧
    (exportClusters id id queryDb 0).map (fun x => (x.1, x.2.fid)) = [(1, 1), (1, 2), (2, 4), (2, 3), (3, 5), (3, 6)] := by
  decide +kernel

/-! ## C34 -/

theorem getD_lt {l : List Nat} {i : Nat} (h : i < l.length) : l.getD i 0 = l[i] := by simp [h]

/-- **C34** for `sample_bitmap(b, k)`: whatever is drawn, the result is a subset of `b` with `min(k, |b|)` members. -/
theorem sample_bitmap_exact (pick : Nat → Nat → List Nat) (hp : Draws pick) (b : Bitmap) (k : Int) (hk : 0 ≤ k) :
    ∃ s, sampleBitmap pick b k = .ok s ∧ s ⊆ b ∧ (s.card : Int) = min k b.card := by
  unfold sampleBitmap
  split
  · rename_i hlt
    obtain ⟨h1, h2, h3⟩ := hp b.card k.toNat (by omega)
    have hlen : b.elems.length = b.card := Bitmap.elems_length b
    have hmap : ∀ l : List Nat, (∀ i ∈ l, i < b.card) →
        l.mapM (fun (i : Nat) => b.item (i : Int)) = .ok (l.map (fun i => b.elems.getD i 0)) := by
      intro l
      induction l with
      | nil => intro _; rfl
      | cons a l ih =>
        intro hl
        have ha : a < b.elems.length := by rw [hlen]; exact hl a (by simp)
        rw [List.mapM_cons, Bitmap.item_nat ha, ih (fun i hi => hl i (by simp [hi]))]
        simp [bind, Except.bind, pure, Except.pure, ha]
    refine ⟨((pick b.card k.toNat).map (fun i => b.elems.getD i 0)).toFinset, ?_, ?_, ?_⟩
    · rw [sampleAt, randomSample, if_neg (by omega)]
      show ((pick b.card k.toNat).mapM (fun (i : Nat) => b.item (i : Int)) >>= _) = _
      rw [hmap _ h3]; rfl
    · intro x hx
      rw [List.mem_toFinset, List.mem_map] at hx
      obtain ⟨i, hi, rfl⟩ := hx
      have := h3 i hi
      rw [← hlen] at this
      rw [getD_lt this]
      exact Bitmap.mem_elems.1 (List.getElem_mem this)
    · have hn : ((pick b.card k.toNat).map (fun i => b.elems.getD i 0)).Nodup := by
        rw [List.nodup_map_iff_inj_on h1]
        intro i hi j hj e
        have a := h3 i hi
        have c := h3 j hj
        rw [← hlen] at a c
        rw [getD_lt a, getD_lt c] at e
        exact (List.Nodup.getElem_inj_iff (Bitmap.elems_nodup b)).1 e
      rw [List.toFinset_card_of_nodup hn, List.length_map, h2]
      omega
  · exact ⟨b, rfl, Finset.Subset.refl _, by omega⟩

/-- A negative sample size raises `ValueError`. -/
theorem sample_bitmap_negative (pick : Nat → Nat → List Nat) (b : Bitmap) (k : Int) (hk : k < 0) :
    sampleBitmap pick b k = .error .valueError := by
  rw [sampleBitmap, if_pos (by omega), sampleAt, randomSample, if_pos (by omega)]; rfl

theorem sampleOne_spec (pick : Nat → Nat → List Nat) (hp : Draws pick) (D : Bitmap) (k : Int) :
    ∃ s, sampleOne pick D k = .ok s ∧ s ⊆ D ∧ (0 < k → (s.card : Int) = min k D.card) ∧ (k ≤ 0 → s = D) := by
  unfold sampleOne
  split
  · rename_i h
    obtain ⟨s, h1, h2, h3⟩ := sample_bitmap_exact pick hp D k (by omega)
    exact ⟨s, h1, h2, fun _ => h3, fun h' => by omega⟩
  · exact ⟨D, rfl, Finset.Subset.refl _, fun h' => by omega, fun _ => rfl⟩

/-- The invariant of the sampling loop: `order` are the clusters done so far. -/
structure Sampling (db : DB) (k : Int) (order : List Int) (done : Bitmap) (samples : Dict Int Bitmap) : Prop where
  keys : Dict.keys samples = order
  nodup : order.Nodup
  done : ∀ d, d ∈ done ↔ ∃ c S, Dict.get? samples c = some S ∧ d ∈ S
  docs : ∀ c S, Dict.get? samples c = some S → ∀ d ∈ S, CoveredBy db c d
  disjoint : ∀ c S c' S', Dict.get? samples c = some S → Dict.get? samples c' = some S' → c ≠ c' → Disjoint S S'
  atMost : ∀ c S, Dict.get? samples c = some S → 0 < k → (S.card : Int) ≤ k
  full : ∀ pre c post S, order = pre ++ c :: post → Dict.get? samples c = some S → k ≤ 0 ∨ (S.card : Int) < k →
    ∀ d, CoveredBy db c d → d ∈ S ∨ ∃ c' ∈ pre, ∃ S', Dict.get? samples c' = some S' ∧ d ∈ S'

theorem Sampling.step {db : DB} {k : Int} {order : List Int} {done : Bitmap} {samples : Dict Int Bitmap}
    (h : Sampling db k order done samples) {c : Int} (hc : c ∉ order) {D S : Bitmap} (hD : ∀ d, d ∈ D ↔ CoveredBy db c d)
    (hS : S ⊆ D \ done) (hk : 0 < k → (S.card : Int) = min k (D \ done).card) (hk' : k ≤ 0 → S = D \ done) :
    Sampling db k (order ++ [c]) (done ∪ S) (Dict.set samples c S) := by
  have hck : c ∉ Dict.keys samples := by rw [h.keys]; exact hc
  have hset : Dict.set samples c S = samples ++ [(c, S)] := by
    rw [Dict.set, if_neg]
    rw [Dict.any_iff]; exact hck
  have hget : ∀ x, Dict.get? (Dict.set samples c S) x = if x = c then some S else Dict.get? samples x := by
    intro x; rw [Dict.get?_set]
  have hknown : ∀ x T, Dict.get? samples x = some T → x ≠ c := by
    intro x T hx e
    rw [e] at hx
    exact hck ((Dict.get?_isSome _ _).1 ⟨_, hx⟩)
  refine ⟨?_, ?_, ?_, ?_, ?_, ?_, ?_⟩
  · rw [hset, Dict.keys, List.map_append, ← h.keys]; rfl
  · rw [List.nodup_append]
    exact ⟨h.nodup, by simp, by rintro a ha b hb rfl; simp at hb; exact hc (hb ▸ ha)⟩
  · intro d
    rw [Finset.mem_union, h.done]
    constructor
    · rintro (⟨x, T, h1, h2⟩ | hd)
      · exact ⟨x, T, by rw [hget, if_neg (hknown x T h1)]; exact h1, h2⟩
      · exact ⟨c, S, by rw [hget, if_pos rfl], hd⟩
    · rintro ⟨x, T, h1, h2⟩
      rw [hget] at h1
      split at h1
      · right; rw [Option.some.inj h1]; exact h2
      · left; exact ⟨x, T, h1, h2⟩
  · intro x T hx d hd
    rw [hget] at hx
    split at hx
    · rename_i e; subst e
      have := hS (by rw [Option.some.inj hx]; exact hd)
      exact (hD d).1 (Finset.mem_sdiff.1 this).1
    · exact h.docs x T hx d hd
  · have key : ∀ x T, Dict.get? samples x = some T → Disjoint S T := by
      intro x T hx
      rw [Finset.disjoint_left]
      intro d hd hd'
      exact (Finset.mem_sdiff.1 (hS hd)).2 ((h.done d).2 ⟨x, T, hx, hd'⟩)
    intro x T y U hx hy hne
    rw [hget] at hx hy
    split at hx <;> split at hy
    · rename_i e1 e2; exact absurd (e1.trans e2.symm) hne
    · rw [← Option.some.inj hx]; exact key y U hy
    · rw [← Option.some.inj hy]; exact (key x T hx).symm
    · exact h.disjoint x T y U hx hy hne
  · intro x T hx hpos
    rw [hget] at hx
    split at hx
    · rw [← Option.some.inj hx, hk hpos]; omega
    · exact h.atMost x T hx hpos
  · intro pre x post T he hx hlt d hd
    rw [hget] at hx
    split at hx
    · rename_i e; subst e
      have hT : S = T := Option.some.inj hx
      subst hT
      have hpost : post = [] ∧ pre = order := by
        rcases List.eq_nil_or_concat post with rfl | ⟨q, z, rfl⟩
        · have := List.append_inj_left' (s₁ := order) (t₁ := [x]) (s₂ := pre) (t₂ := [x]) he rfl
          exact ⟨rfl, this.symm⟩
        · exfalso
          rw [List.concat_eq_append, ← List.cons_append, ← List.append_assoc] at he
          have e1 := List.append_inj_left' he rfl
          exact hc (by rw [e1]; simp)
      have hfull : D \ done ⊆ S := by
        rcases hlt with h0 | hlt
        · rw [hk' h0]
        · by_cases hpos : 0 < k
          · have := hk hpos
            rw [Finset.eq_of_subset_of_card_le hS (by omega)]
          · rw [hk' (by omega)]
      by_cases hdd : d ∈ done
      · right
        obtain ⟨y, U, h1, h2⟩ := (h.done d).1 hdd
        refine ⟨y, ?_, U, ?_, h2⟩
        · rw [hpost.2, ← h.keys]; exact (Dict.get?_isSome _ _).1 ⟨_, h1⟩
        · rw [hget, if_neg (hknown y U h1)]; exact h1
      · left; exact hfull (Finset.mem_sdiff.2 ⟨(hD d).2 hd, hdd⟩)
    · rename_i hne
      rcases List.eq_nil_or_concat post with rfl | ⟨q, z, rfl⟩
      · exfalso
        have := List.append_inj_right' (s₁ := order) (t₁ := [c]) (s₂ := pre) (t₂ := [x]) he rfl
        simp at this; exact hne this.symm
      · rw [List.concat_eq_append, ← List.cons_append, ← List.append_assoc] at he
        have e1 := List.append_inj_left' he rfl
        rcases h.full pre x q T e1 hx hlt d hd with h1 | ⟨y, hy, U, h1, h2⟩
        · exact Or.inl h1
        · exact Or.inr ⟨y, hy, U, by rw [hget, if_neg (hknown y U h1)]; exact h1, h2⟩

theorem sampleLoop_spec {pick : Int → Nat → Nat → List Nat} (hp : ∀ c, Draws (pick c)) {db : DB} (hs : Settled db)
    (wanted : List Int) (k : Int) : ∀ (cs : List Int) (order : List Int) (done : Bitmap) (samples : Dict Int Bitmap),
    (∀ c ∈ cs, hasCluster db c) → (order ++ cs).Nodup → Sampling db k order done samples →
    ∃ done' samples', sampleLoop pick db wanted k cs done samples = .ok (done', samples') ∧
      Sampling db k (order ++ cs.filter (· ∈ wanted)) done' samples'
  | [], order, done, samples, _, _, h => ⟨done, samples, rfl, by simpa using h⟩
  | c :: cs, order, done, samples, hcs, hn, h => by
    by_cases hw : c ∈ wanted
    · obtain ⟨D, hD, hD'⟩ := clusterDocs_spec hs c (hcs c (by simp))
      obtain ⟨S, h1, h2, h3, h4⟩ := sampleOne_spec (pick c) (hp c) (D \ done) k
      have hc : c ∉ order := fun hh => (List.nodup_append.1 hn).2.2 c hh c (by simp) rfl
      obtain ⟨d', s', e1, e2⟩ := sampleLoop_spec hp hs wanted k cs (order ++ [c]) (done ∪ S) (Dict.set samples c S)
        (fun x hx => hcs x (by simp [hx])) (by simpa using hn) (h.step hc hD' h2 h3 h4)
      refine ⟨d', s', ?_, ?_⟩
      · rw [sampleLoop, if_pos hw, hD]
        show (sampleOne (pick c) (D \ done) k >>= _) = _
        rw [h1]; exact e1
      · simpa [List.filter_cons, hw] using e2
    · obtain ⟨d', s', e1, e2⟩ := sampleLoop_spec hp hs wanted k cs order done samples
        (fun x hx => hcs x (by simp [hx]))
        (by rw [List.nodup_append] at hn ⊢; exact ⟨hn.1, (List.nodup_cons.1 hn.2.1).2, fun a ha b hb => hn.2.2 a ha b (by simp [hb])⟩) h
      refine ⟨d', s', ?_, by simpa [List.filter_cons, hw] using e2⟩
      rw [sampleLoop, if_neg hw]; exact e1

theorem sampledClusters_spec {db : DB} (hs : Settled db) (done : Bitmap) : ∀ (cids : List Int),
    (∀ c ∈ cids, hasCluster db c) → cids.Nodup → ∃ r, sampledClusters db done cids = .ok r ∧
      (∀ c ∈ Dict.keys r, c ∈ cids) ∧ (Dict.keys r).Nodup ∧
      (∀ c S, Dict.get? r c = some S → S.Nonempty) ∧
      ∀ c d, (∃ S, Dict.get? r c = some S ∧ d ∈ S) ↔ c ∈ cids ∧ CoveredBy db c d ∧ d ∈ done := by
  intro cids
  induction cids with
  | nil =>
    intro _ _
    refine ⟨[], rfl, ?_, ?_, ?_, ?_⟩ <;> simp [Dict.keys, Dict.get?]
  | cons c cs ih =>
    intro hc hn
    obtain ⟨r, h1, h2, h3, h4, h5⟩ := ih (fun x hx => hc x (by simp [hx])) (List.nodup_cons.1 hn).2
    obtain ⟨D, hD, hD'⟩ := clusterDocs_spec hs c (hc c (by simp))
    have hcr : c ∉ Dict.keys r := fun h => (List.nodup_cons.1 hn).1 (h2 c h)
    obtain ⟨docs, hdocs, hr⟩ := bind_ok h1
    have hr' : (cs.zip docs).filterMap (fun x => if (done ∩ x.2).card = 0 then none else some (x.1, done ∩ x.2)) = r := by
      simpa [pure, Except.pure] using hr
    have hstep : sampledClusters db done (c :: cs) =
        .ok (if (done ∩ D).card = 0 then r else (c, done ∩ D) :: r) := by
      unfold sampledClusters
      rw [List.mapM_cons, hD, hdocs]
      show Except.ok _ = _
      rw [List.zip_cons_cons, List.filterMap_cons]
      split
      · rename_i he
        have : (done ∩ D).card = 0 := by
          by_contra hne; simp [hne] at he
        rw [if_pos this, hr']
      · rename_i b he
        have : ¬ (done ∩ D).card = 0 := by
          intro hne; simp [hne] at he
        rw [if_neg this, hr']
        simp only [this, if_false, Option.some.injEq] at he
        rw [← he]
    refine ⟨_, hstep, ?_, ?_, ?_, ?_⟩
    · intro x hx
      split at hx
      · simp [h2 x hx]
      · rcases List.mem_cons.1 (show x ∈ c :: Dict.keys r from hx) with rfl | hx
        · simp
        · simp [h2 x hx]
    · split
      · exact h3
      · exact List.nodup_cons.2 ⟨hcr, h3⟩
    · intro x S hx
      split at hx
      · exact h4 x S hx
      · rename_i hne
        rw [Dict.get?_cons] at hx
        split at hx
        · rw [← Option.some.inj hx]
          exact Finset.card_pos.1 (Nat.pos_of_ne_zero hne)
        · exact h4 x S hx
    · intro x d
      split
      · rename_i he
        rw [h5]
        constructor
        · rintro ⟨a, b, e⟩; exact ⟨by simp [a], b, e⟩
        · rintro ⟨a, b, e⟩
          refine ⟨?_, b, e⟩
          rcases List.mem_cons.1 a with rfl | a
          · exfalso
            have : d ∈ done ∩ D := Finset.mem_inter.2 ⟨e, (hD' d).2 b⟩
            rw [Finset.card_eq_zero.1 he] at this
            simp at this
          · exact a
      · rename_i hne
        rw [Dict.get?_cons]
        by_cases hx : c = x
        · subst hx
          simp only [if_true]
          constructor
          · rintro ⟨S, e, hd⟩
            rw [← Option.some.inj e, Finset.mem_inter] at hd
            exact ⟨by simp, (hD' d).1 hd.2, hd.1⟩
          · rintro ⟨-, b, e⟩
            exact ⟨_, rfl, Finset.mem_inter.2 ⟨e, (hD' d).2 b⟩⟩
        · rw [if_neg (by simpa using hx), h5]
          constructor
          · rintro ⟨a, b, e⟩; exact ⟨by simp [a], b, e⟩
          · rintro ⟨a, b, e⟩
            rcases List.mem_cons.1 a with rfl | a
            · exact absurd rfl hx
            · exact ⟨a, b, e⟩

/-- **C34** for `structured_doc_sample(k, ids)`, whatever is drawn.  `order` are the requested clusters (all when none are
given) in order of increasing document count.  Every requested cluster gets a sample of its documents; samples of
different clusters are disjoint; a sample has at most `k` documents, and fewer only when all documents of the cluster
are in its sample or in that of an earlier cluster (`k ≤ 0`: always all of them); the second result holds, for
every cluster, exactly its documents among the sampled ones, and no empty entries. -/
theorem structured_sample (visitC : List ClusterRow → List ClusterRow) (hv : AnyOrder visitC)
    (pick : Int → Nat → Nat → List Nat) (hp : ∀ c, Draws (pick c)) (db : DB) (hs : Settled db) (k : Int) (ids : List Int) :
    ∃ samples clusters order, structuredDocSample visitC pick db k ids = .ok (samples, clusters) ∧
      Dict.keys samples = order ∧ order.Nodup ∧
      (∀ c, c ∈ order ↔ hasCluster db c ∧ (ids = [] ∨ c ∈ ids)) ∧
      order.Pairwise (fun a b => ∃ A B, clusterDocs db a = .ok A ∧ clusterDocs db b = .ok B ∧ A.card ≤ B.card) ∧
      (∀ c S, Dict.get? samples c = some S → ∀ d ∈ S, CoveredBy db c d) ∧
      (∀ c S c' S', Dict.get? samples c = some S → Dict.get? samples c' = some S' → c ≠ c' → Disjoint S S') ∧
      (∀ c S, Dict.get? samples c = some S → 0 < k → (S.card : Int) ≤ k) ∧
      (∀ pre c post S, order = pre ++ c :: post → Dict.get? samples c = some S → k ≤ 0 ∨ (S.card : Int) < k →
        ∀ d, CoveredBy db c d → d ∈ S ∨ ∃ c' ∈ pre, ∃ S', Dict.get? samples c' = some S' ∧ d ∈ S') ∧
      (Dict.keys clusters).Nodup ∧ (∀ c S, Dict.get? clusters c = some S → S.Nonempty) ∧
      ∀ c d, (∃ S, Dict.get? clusters c = some S ∧ d ∈ S) ↔
        CoveredBy db c d ∧ ∃ c' S', Dict.get? samples c' = some S' ∧ d ∈ S' := by
  obtain ⟨t1, t2, t3, t4⟩ := top_cluster_features_listing visitC hv id (fun l => .refl _) db hs 0
  set all := (topClusterFeatures visitC id db 0).map (·.1) with hall
  set wanted := if ids.isEmpty then clusterIds db else ids with hwanted
  have hw : ∀ c, c ∈ wanted ↔ (ids = [] ∧ hasCluster db c) ∨ (ids ≠ [] ∧ c ∈ ids) := by
    intro c
    cases ids with
    | nil =>
      simp only [hwanted, List.isEmpty_nil, if_true, clusterIds, List.mem_insertionSort, List.mem_map, hasCluster]
      simp
    | cons x xs => simp [hwanted]
  obtain ⟨done, samples, h1, h2⟩ := sampleLoop_spec hp hs wanted k all.reverse [] ∅ []
    (fun c hc => (t2 c).1 (List.mem_reverse.1 hc)) (by simpa using t1)
    ⟨rfl, by simp, by simp [Dict.get?], by simp [Dict.get?], by simp [Dict.get?], by simp [Dict.get?], by simp⟩
  obtain ⟨clusters, g1, -, g3, g4, g5⟩ := sampledClusters_spec hs done all (fun c hc => (t2 c).1 hc) t1
  rw [List.nil_append] at h2
  have hcov : ∀ c d, CoveredBy db c d → c ∈ all := by
    rintro c d ⟨f, hf, -⟩
    exact (t2 c).2 ((hasCluster_iff_assign hs c).2 ⟨f, hf⟩)
  refine ⟨samples, clusters, all.reverse.filter (· ∈ wanted), ?_, h2.keys, h2.nodup, ?_, ?_, h2.docs, h2.disjoint,
    h2.atMost, h2.full, g3, g4, ?_⟩
  · simp only [structuredDocSample, ← hall, ← hwanted, h1, bind, Except.bind]
    simp only [g1, pure, Except.pure]
  · intro c
    rw [List.mem_filter, List.mem_reverse, t2, decide_eq_true_eq, hw]
    constructor
    · rintro ⟨a, ⟨b, -⟩ | ⟨-, b⟩⟩
      · exact ⟨a, Or.inl b⟩
      · exact ⟨a, Or.inr b⟩
    · rintro ⟨a, b⟩
      by_cases e : ids = []
      · exact ⟨a, Or.inl ⟨e, a⟩⟩
      · exact ⟨a, Or.inr ⟨e, b.resolve_left e⟩⟩
  · refine List.Pairwise.sublist List.filter_sublist ?_
    rw [List.pairwise_reverse, hall, List.pairwise_map]
    refine (List.Pairwise.and_mem.1 t3).imp ?_
    rintro a b ⟨ha, hb, hle⟩
    obtain ⟨⟨A, e1, e2, -⟩, -⟩ := t4 a ha
    obtain ⟨⟨B, e3, e4, -⟩, -⟩ := t4 b hb
    exact ⟨B, A, e3, e1, by rw [← e2, ← e4]; exact hle⟩
  · intro c d
    rw [g5, h2.done]
    constructor
    · rintro ⟨-, b, e⟩; exact ⟨b, e⟩
    · rintro ⟨b, e⟩; exact ⟨hcov c d b, b, e⟩

/-- Drawing the first indices is a possible draw. -/
theorem draws_first : Draws (fun _ k => List.range k) := by
  intro n k hk
  exact ⟨List.nodup_range, by simp, by intro i hi; simp at hi; omega⟩

/-- One document per cluster in the example: the smallest cluster first. -/
example : (structuredDocSample id (fun _ _ k => List.range k) queryDb 1 []).toOption =
    some ([(3, {1}), (2, {0}), (1, {2})], [(1, {0, 1, 2}), (2, {0, 2}), (3, {1})]) := by decide +kernel

/-! ## C35 -/

theorem val_le_antisymm {a b : Val} (h1 : Val.le a b = true) (h2 : Val.le b a = true) : a = b := by
  cases a <;> cases b <;> simp [Val.le] at h1 h2
  · simp [le_antisymm h1 h2]
  · exact congrArg _ (String.le_antisymm h1 h2)

theorem iterFieldDocs_perm (db : DB) (field : String) (m : Nat) : (iterFieldDocs db field m).Perm
    ((db.features.filter (fun r => r.field = field ∧ m ≤ r.docsCount)).map (fun r => (r.value, r.docsCount, r.docs))) :=
  List.perm_insertionSort _ _

theorem iterFieldDocs_sorted (db : DB) (field : String) (m : Nat) :
    (iterFieldDocs db field m).Pairwise (fun a b => Val.le a.1 b.1 = true) := by
  haveI : Std.Total (fun a b : Val × Nat × Bitmap => Val.le a.1 b.1 = true) := ⟨fun a b => Val.le_total a.1 b.1⟩
  haveI : IsTrans (Val × Nat × Bitmap) (fun a b => Val.le a.1 b.1 = true) := ⟨fun a b c h1 h2 => Val.le_trans h1 h2⟩
  exact List.pairwise_insertionSort _ _

theorem iterFieldDocs_row {db : DB} (h : Wellformed db) {field : String} {m : Nat} {x : Val × Nat × Bitmap}
    (hx : x ∈ iterFieldDocs db field m) : x.2.2 = db.docsOfKey field x.1 ∧ x.2.1 = x.2.2.card ∧ m ≤ x.2.1 := by
  have := (iterFieldDocs_perm db field m).mem_iff.1 hx
  obtain ⟨r, hr, rfl⟩ := List.mem_map.1 this
  obtain ⟨h1, h2⟩ := List.mem_filter.1 hr
  simp only [decide_eq_true_eq] at h2
  refine ⟨?_, h.counts r h1, h2.2⟩
  have hf : db.features.find? (fun r' => r'.field = field ∧ r'.value = r.value) = some r := by
    cases hq : db.features.find? (fun r' => decide (r'.field = field ∧ r'.value = r.value)) with
    | none =>
      have := List.find?_eq_none.1 hq r h1
      simp [h2.1] at this
    | some r' =>
      have a := List.mem_of_find?_eq_some hq
      have b := List.find?_some hq
      simp only [decide_eq_true_eq] at b
      have := List.inj_on_of_nodup_map h.featureKeys a h1 (by simp [b.1, b.2, h2.1])
      rw [this]
  simp only [docsOfKey, hf]

theorem iterFieldDocs_nodup {db : DB} (h : Wellformed db) (field : String) (m : Nat) :
    ((iterFieldDocs db field m).map (·.1)).Nodup := by
  rw [((iterFieldDocs_perm db field m).map _).nodup_iff, List.map_map]
  have hk := h.featureKeys
  rw [List.Nodup, List.pairwise_map] at hk ⊢
  refine (List.Pairwise.and_mem.1 (hk.sublist List.filter_sublist)).imp ?_
  rintro a b ⟨ha, hb, hne⟩
  simp only [List.mem_filter, decide_eq_true_eq] at ha hb
  intro e
  exact hne (by simp only [Function.comp] at e; simp [ha.2.1, hb.2.1, e])

theorem addIntersections_get (docs : Bitmap) (n : String) : ∀ (queries : Dict String Bitmap) (acc : Dict String (List Nat)),
    (Dict.keys queries).Nodup →
    (Dict.get? (addIntersections queries docs acc) n).getD [] =
      (Dict.get? acc n).getD [] ++ (match Dict.get? queries n with
        | some q => [(q ∩ docs).card]
        | none => [])
  | [], acc, _ => by simp [addIntersections, Dict.get?]
  | (m, q) :: queries, acc, hn => by
    obtain ⟨hm, hn'⟩ := List.nodup_cons.1 (show (m :: Dict.keys queries).Nodup from hn)
    have := addIntersections_get docs n queries (Dict.set acc m ((Dict.get? acc m).getD [] ++ [(q ∩ docs).card])) hn'
    rw [addIntersections, List.foldl_cons]
    rw [addIntersections] at this
    rw [this, Dict.get?_set, Dict.get?_cons]
    by_cases e : n = m
    · subst e
      have hnone : Dict.get? queries n = none := (Dict.get?_eq_none _ _).2 hm
      simp [hnone]
    · have e' : ¬ m = n := fun h => e h.symm
      simp [e, e']

/-- **C35.** `intersect_queries_with_field` returns the distinct values of the field that occur in at least one document, in
ascending order (SQLite's order of values), their document counts, and for each query the list, aligned with the
values, of the numbers of its documents having the value. -/
theorem intersections_exact (db : DB) (h : Wellformed db) (queries : Dict String Bitmap) (hq : (Dict.keys queries).Nodup)
    (field : String) :
    ∃ values totals inters, intersectQueries db queries field = (values, totals, inters) ∧
      values.Pairwise (fun a b => Val.le a b = true ∧ a ≠ b) ∧
      (∀ v, v ∈ values ↔ (db.docsOfKey field v).Nonempty) ∧
      totals = values.map (fun v => (db.docsOfKey field v).card) ∧
      ∀ n q, Dict.get? queries n = some q →
        (Dict.get? inters n).getD [] = values.map (fun v => (q ∩ db.docsOfKey field v).card) := by
  refine ⟨_, _, _, rfl, ?_, ?_, ?_, ?_⟩
  · have h1 := iterFieldDocs_sorted db field 1
    have h2 := iterFieldDocs_nodup h field 1
    rw [List.Nodup, List.pairwise_map] at h2
    rw [List.pairwise_map]
    exact h1.and h2
  · intro v
    rw [List.mem_map]
    constructor
    · rintro ⟨x, hx, rfl⟩
      obtain ⟨h1, h2, h3⟩ := iterFieldDocs_row h hx
      rw [← h1]
      exact Finset.card_pos.1 (by omega)
    · intro hv
      cases hf : db.features.find? (fun r' => decide (r'.field = field ∧ r'.value = v)) with
      | none => rw [docsOfKey, hf] at hv; simp at hv
      | some r =>
        simp only [docsOfKey, hf] at hv
        have a := List.mem_of_find?_eq_some hf
        have b := List.find?_some hf
        simp only [decide_eq_true_eq] at b
        refine ⟨(r.value, r.docsCount, r.docs), (iterFieldDocs_perm db field 1).mem_iff.2 (List.mem_map.2 ⟨r, ?_, rfl⟩), b.2⟩
        rw [List.mem_filter, decide_eq_true_eq]
        exact ⟨a, b.1, by rw [h.counts r a]; exact Finset.card_pos.2 hv⟩
  · rw [List.map_map]
    apply List.map_congr_left
    intro x hx
    obtain ⟨h1, h2, -⟩ := iterFieldDocs_row h hx
    simp only [Function.comp]
    rw [h2, h1]
  · intro n q hn
    have key : ∀ (rows : List (Val × Nat × Bitmap)) (acc : Dict String (List Nat)),
        (Dict.get? (rows.foldl (fun acc r => addIntersections queries r.2.2 acc) acc) n).getD [] =
          (Dict.get? acc n).getD [] ++ rows.map (fun r => (q ∩ r.2.2).card) := by
      intro rows
      induction rows with
      | nil => intro acc; simp
      | cons r rows ih =>
        intro acc
        rw [List.foldl_cons, ih, addIntersections_get _ _ _ _ hq, hn]
        simp
    rw [key]
    simp only [Dict.get?, List.find?_nil, Option.map_none, Option.getD_none, List.nil_append, List.map_map]
    apply List.map_congr_left
    intro x hx
    simp only [Function.comp]
    rw [(iterFieldDocs_row h hx).1]

/-- The field `t` of the example: `z` no longer occurs. -/
example : intersectQueries queryDb [("q", {1, 2}), ("r", {0})] "t" =
    ([.text "a", .text "b", .text "c"], [2, 2, 1], [("q", [2, 1, 1]), ("r", [0, 1, 0])]) ∧ Wellformed queryDb :=
  ⟨by decide +kernel, queryDb_settled.toWellformed⟩

/-! ## C54 -/

/-- **C54 (partial).** Feature ids and `(field, value)` pairs are looked up consistently: `lookup_feature` and
`lookup_feature_id` are inverse to each other on the indexed features, `KeyError` is raised for anything else, and
looking the documents up by id or by key gives the same set.
Unknown features have no documents.
Missing: the range lookup by a slice of keys, which is documented but returns `None`, see `slice_lookup_none`. -/
theorem lookups_inverse_partial (db : DB) (h : Wellformed db) :
    (∀ f field value, lookupFeature db f = .ok (field, value) ↔ lookupFeatureId db field value = .ok f) ∧
    (∀ r ∈ db.features, lookupFeature db r.fid = .ok (r.field, r.value) ∧ getItem db (.id r.fid) = some r.docs ∧
      getItem db (.key r.field r.value) = some r.docs) ∧
    (∀ f, (∃ r ∈ db.features, r.fid = f) ∨ (lookupFeature db f = .error .keyError ∧ getItem db (.id f) = some ∅)) ∧
    (∀ field value, (∃ r ∈ db.features, r.field = field ∧ r.value = value) ∨
      (lookupFeatureId db field value = .error .keyError ∧ getItem db (.key field value) = some ∅)) := by
  have hid : ∀ f r, db.feature? f = some r ↔ r ∈ db.features ∧ r.fid = f := feature?_eq_some h
  have hkey : ∀ field value r, db.features.find? (fun r => r.field = field ∧ r.value = value) = some r ↔
      r ∈ db.features ∧ r.field = field ∧ r.value = value := by
    intro field value r
    constructor
    · intro hh
      exact ⟨List.mem_of_find?_eq_some hh, by simpa using List.find?_some hh⟩
    · rintro ⟨h1, h2, h3⟩
      cases hq : db.features.find? (fun r' => decide (r'.field = field ∧ r'.value = value)) with
      | none =>
        have := List.find?_eq_none.1 hq r h1
        simp [h2, h3] at this
      | some r' =>
        have a := List.mem_of_find?_eq_some hq
        have b := List.find?_some hq
        simp only [decide_eq_true_eq] at b
        have := List.inj_on_of_nodup_map h.featureKeys a h1 (by simp [b.1, b.2, h2, h3])
        rw [this]
  have hl : ∀ f field value, lookupFeature db f = .ok (field, value) ↔
      ∃ r ∈ db.features, r.fid = f ∧ r.field = field ∧ r.value = value := by
    intro f field value
    unfold lookupFeature
    cases hq : db.feature? f with
    | none =>
      simp only [reduceCtorEq, false_iff]
      rintro ⟨r, h1, h2, -⟩
      rw [(hid f r).2 ⟨h1, h2⟩] at hq
      cases hq
    | some r =>
      simp only [Except.ok.injEq, Prod.mk.injEq]
      obtain ⟨h1, h2⟩ := (hid f r).1 hq
      constructor
      · rintro ⟨a, b⟩; exact ⟨r, h1, h2, a, b⟩
      · rintro ⟨r', a, b, c, d⟩
        rw [(hid f r').2 ⟨a, b⟩] at hq
        rw [← Option.some.inj hq]; exact ⟨c, d⟩
  have hlid : ∀ f field value, lookupFeatureId db field value = .ok f ↔
      ∃ r ∈ db.features, r.fid = f ∧ r.field = field ∧ r.value = value := by
    intro f field value
    unfold lookupFeatureId
    cases hq : db.features.find? (fun r => decide (r.field = field ∧ r.value = value)) with
    | none =>
      simp only [reduceCtorEq, false_iff]
      rintro ⟨r, h1, -, h3, h4⟩
      rw [(hkey field value r).2 ⟨h1, h3, h4⟩] at hq
      cases hq
    | some r =>
      simp only [Except.ok.injEq]
      obtain ⟨h1, h2, h3⟩ := (hkey field value r).1 hq
      constructor
      · intro a; exact ⟨r, h1, a, h2, h3⟩
      · rintro ⟨r', a, b, c, d⟩
        rw [(hkey field value r').2 ⟨a, c, d⟩] at hq
        rw [← Option.some.inj hq]; exact b
  refine ⟨fun f field value => (hl f field value).trans (hlid f field value).symm, ?_, ?_, ?_⟩
  · intro r hr
    refine ⟨(hl r.fid _ _).2 ⟨r, hr, rfl, rfl, rfl⟩, ?_, ?_⟩
    · have a := (hid r.fid r).2 ⟨hr, rfl⟩
      simp only [getItem, docsOf, a]
    · have b := (hkey r.field r.value r).2 ⟨hr, rfl, rfl⟩
      simp only [getItem, docsOfKey, b]
  · intro f
    cases hq : db.feature? f with
    | none => right; simp [lookupFeature, hq, getItem, docsOf]
    | some r => left; obtain ⟨h1, h2⟩ := (hid f r).1 hq; exact ⟨r, h1, h2⟩
  · intro field value
    cases hq : db.features.find? (fun r => decide (r.field = field ∧ r.value = value)) with
    | none => right; exact ⟨by rw [lookupFeatureId, hq], by simp only [getItem, docsOfKey, hq]⟩
    | some r => left; obtain ⟨h1, h2⟩ := (hkey field value r).1 hq; exact ⟨r, h1, h2⟩

/-- **C54 fails** for slices: although documented, `idx[(field, a):(field, b)]` is `None` on every index. -/
theorem slice_lookup_none (db : DB) (a b : String × Val) : getItem db (.range a b) = none := rfl

example : (lookupFeature queryDb 4).toOption = some ("n", .int 5) ∧ (lookupFeatureId queryDb "n" (.int 5)).toOption = some 4 ∧
    getItem queryDb (.id 4) = some {0, 2} ∧ (lookupFeature queryDb 9).toOption = none := by decide +kernel

end Hyperreal.Props
