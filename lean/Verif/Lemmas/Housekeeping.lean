import Verif.Lemmas.Store

namespace Hyperreal
open Spec
namespace DB

theorem unionQuery_foldl (committed : DB) (fids : List Nat) : ∀ acc : Bitmap × Nat,
    (∀ d, d ∈ (fids.foldl (fun acc f => (acc.1 ∪ committed.docsOf f, acc.2 + (committed.docsOf f).card)) acc).1 ↔
      d ∈ acc.1 ∨ ∃ f ∈ fids, d ∈ committed.docsOf f) ∧
    (fids.foldl (fun acc f => (acc.1 ∪ committed.docsOf f, acc.2 + (committed.docsOf f).card)) acc).2 =
      acc.2 + (fids.map (fun f => (committed.docsOf f).card)).sum := by
  induction fids with
  | nil => intro acc; simp
  | cons f fs ih =>
    intro acc
    simp only [List.foldl_cons]
    obtain ⟨h1, h2⟩ := ih (acc.1 ∪ committed.docsOf f, acc.2 + (committed.docsOf f).card)
    refine ⟨fun d => ?_, ?_⟩
    · rw [h1]; simp only [Finset.mem_union, List.mem_cons, exists_eq_or_imp]; tauto
    · rw [h2]; simp only [List.map_cons, List.sum_cons]; omega

theorem unionQuery_spec (committed : DB) (fids : List Nat) :
    (∀ d, d ∈ (unionQuery committed fids).1 ↔ ∃ f ∈ fids, d ∈ committed.docsOf f) ∧
    (unionQuery committed fids).2 = (fids.map (fun f => (committed.docsOf f).card)).sum := by
  obtain ⟨h1, h2⟩ := unionQuery_foldl committed fids (∅, 0)
  exact ⟨fun d => by rw [unionQuery, h1]; simp, by rw [unionQuery, h2]; simp⟩

/-- The row with refreshed union statistics. -/
def freshRow (committed : DB) (fc : List FCRow) (r : ClusterRow) : ClusterRow :=
  let q := unionQuery committed ((fc.filter (fun x => x.cid = r.cid)).map (·.fid))
  { r with docsCount := q.1.card, weight := q.2, docs := some q.1 }

theorem foldRefresh (committed : DB) (cs : List Int) : ∀ db : DB,
    cs.foldl (fun d c => refreshUnion committed c d) db =
      { db with clusters := db.clusters.map (fun r => if r.cid ∈ cs then freshRow committed db.fc r else r) } := by
  induction cs with
  | nil => intro db; simp
  | cons c cs ih =>
    intro db
    simp only [List.foldl_cons]
    rw [ih]
    simp only [refreshUnion, List.map_map]
    congr 1
    apply List.map_congr_left
    intro r _
    simp only [Function.comp, members]
    by_cases h : r.cid = c
    · subst h
      simp only [if_true, List.mem_cons, true_or]
      split <;> rfl
    · simp [h]

/-- What the housekeeping leaves. -/
theorem updateChanged_spec {db committed : DB} (h : Pending db) (hcom : committed.features = db.features) :
    ∃ db', updateChanged none committed db = (db', none) ∧ Settled db' ∧ db'.features = db.features ∧ db'.fc = db.fc ∧
      (db'.docKeys = db.docKeys ∧ db'.posDocMap = db.posDocMap ∧ db'.posIndex = db.posIndex ∧
        db'.fieldSummary = db.fieldSummary) ∧
      (∀ k' ∈ db'.clusters, ∃ k ∈ db.clusters, k.cid = k'.cid ∧ k.pinned = k'.pinned) ∧
      (∀ k ∈ db.clusters, (∃ r ∈ db.fc, r.cid = k.cid) → ∃ k' ∈ db'.clusters, k'.cid = k.cid) := by
  -- the final row of each cluster
  let g : ClusterRow → ClusterRow := fun r =>
    if r.cid ∈ db.changed then
      freshRow committed db.fc { r with featureCount := (db.fc.filter (fun x => x.cid = r.cid)).length } else r
  have hgcid : ∀ r, (g r).cid = r.cid := by intro r; simp only [g]; split <;> rfl
  have hgpin : ∀ r, (g r).pinned = r.pinned := by intro r; simp only [g]; split <;> rfl
  have hstep : db.changed.foldl (fun d c => refreshUnion committed c d) db.refreshCounts =
      { db with clusters := db.clusters.map g } := by
    rw [foldRefresh]
    simp only [refreshCounts, List.map_map, members]
    congr 1
    apply List.map_congr_left
    intro r _
    simp only [Function.comp, g]
    by_cases hc : r.cid ∈ db.changed
    · simp only [hc, if_true]
    · simp only [hc, if_false]
  have hchg : db.refreshCounts.changed = db.changed := rfl
  have hdocs : ∀ f, committed.docsOf f = db.docsOf f := fun f => docsOf_congr hcom f
  -- exactness of the final rows of clusters with features
  have hfc : ∀ k ∈ db.clusters, (g k).featureCount = db.fc.countP (fun r => r.cid = k.cid) := by
    intro k hk
    simp only [g]
    split
    · simp only [freshRow]; rw [List.countP_eq_length_filter]
    · rename_i hn; exact (h.summaries k hk hn).featureCount
  have hex : ∀ k ∈ db.clusters, (∃ r ∈ db.fc, r.cid = k.cid) → ∀ d' : DB, d'.features = db.features → d'.fc = db.fc →
      Exact d' (g k) := by
    intro k hk hne d' hf' hfc'
    have base : Exact db (g k) := by
      refine ⟨by rw [hgcid]; exact hne, by rw [hgcid]; exact hfc k hk, ?_, ?_⟩
      · rw [hgcid]
        simp only [g]
        split
        · refine ⟨_, rfl, rfl, ?_⟩
          intro d
          simp only []
          rw [(unionQuery_spec committed _).1]
          simp only [List.mem_map, List.mem_filter, decide_eq_true_eq, hdocs]
          constructor
          · rintro ⟨f, ⟨r, ⟨hr, hrc⟩, rfl⟩, hd⟩; exact ⟨r, hr, hrc, hd⟩
          · rintro ⟨r, hr, hrc, hd⟩; exact ⟨_, ⟨r, ⟨hr, hrc⟩, rfl⟩, hd⟩
        · rename_i hn; exact (h.summaries k hk hn).docs
      · rw [hgcid]
        simp only [g]
        split
        · simp only [freshRow]
          rw [(unionQuery_spec committed _).2, List.map_map]
          congr 1
          apply List.map_congr_left
          intro r _
          simp only [Function.comp, hdocs]
        · rename_i hn; exact (h.summaries k hk hn).weight
    exact Exact_congr (g k) hf' (by rw [hfc']) base
  have hpos : ∀ k ∈ db.clusters, (g k).featureCount ≠ 0 ↔ ∃ r ∈ db.fc, r.cid = k.cid := by
    intro k hk
    rw [hfc k hk, ne_eq, List.countP_eq_zero]
    push Not
    simp
  let db2 : DB := { db with
    clusters := (db.clusters.map g).filter (fun r => !decide (r.featureCount = 0))
    changed := db.changed.filter (fun c => !((db.clusters.map g).filter (fun r => r.featureCount = 0)).any (fun r => r.cid = c)) }
  have hmem2 : ∀ k', k' ∈ db2.clusters ↔ ∃ k ∈ db.clusters, (∃ r ∈ db.fc, r.cid = k.cid) ∧ g k = k' := by
    intro k'
    simp only [db2, List.mem_filter, List.mem_map, Bool.not_eq_true', decide_eq_false_iff_not]
    constructor
    · rintro ⟨⟨k, hk, rfl⟩, hne⟩; exact ⟨k, hk, (hpos k hk).1 hne, rfl⟩
    · rintro ⟨k, hk, hne, rfl⟩; exact ⟨⟨k, hk, rfl⟩, (hpos k hk).2 hne⟩
  have hknown2 : ∀ r ∈ db.fc, ∃ k ∈ db2.clusters, k.cid = r.cid := by
    intro r hr
    obtain ⟨k, hk, hkr⟩ := h.knownCluster r hr
    exact ⟨g k, (hmem2 _).2 ⟨k, hk, ⟨r, hr, hkr.symm⟩, rfl⟩, by rw [hgcid]; exact hkr⟩
  have hnodup2 : (db2.clusters.map (·.cid)).Nodup := by
    have h1 : ((db.clusters.map g).map (·.cid)).Nodup := by
      rw [List.map_map]
      have : ((fun r : ClusterRow => r.cid) ∘ g) = (·.cid) := by funext r; exact hgcid r
      rw [this]; exact h.clusterIds
    exact h1.sublist (List.Sublist.map _ List.filter_sublist)
  have hfk : db2.fkOk = true := by
    rw [fkOk_iff]
    refine ⟨fun r hr => ⟨?_, hknown2 r hr⟩, ?_⟩
    · obtain ⟨f, hf, h1, -⟩ := h.knownFeature r hr; exact ⟨f, hf, h1⟩
    · intro c hc
      simp only [db2, List.mem_filter, Bool.not_eq_true', List.any_eq_false, decide_eq_true_eq, List.mem_map] at hc
      obtain ⟨hc, hno⟩ := hc
      obtain ⟨k, hk, rfl⟩ := h.pendingKnown c hc
      have hne : (g k).featureCount ≠ 0 := by
        intro h0
        exact hno (g k) ⟨⟨k, hk, rfl⟩, h0⟩ (hgcid k)
      exact ⟨g k, (hmem2 _).2 ⟨k, hk, (hpos k hk).1 hne, rfl⟩, hgcid k⟩
  have hdel : deleteClusterRows (fun r => r.featureCount = 0) { db with clusters := db.clusters.map g } = .ok db2 := by
    simp only [deleteClusterRows]
    show checked db2 = _
    simp [checked, hfk]
  refine ⟨{ db2 with changed := [] }, ?_, ?_, rfl, rfl, ⟨rfl, rfl, rfl, rfl⟩, ?_, ?_⟩
  · simp only [updateChanged, hchg, hstep, hdel]
  · exact {
      featureIds := h.featureIds
      featureKeys := h.featureKeys
      counts := h.counts
      oneCluster := h.oneCluster
      clusterIds := hnodup2
      knownFeature := h.knownFeature
      knownCluster := hknown2
      summaries := by
        intro k' hk'
        obtain ⟨k, hk, hne, rfl⟩ := (hmem2 k').1 hk'
        exact hex k hk hne _ rfl rfl
      nothingPending := rfl }
  · intro k' hk'
    obtain ⟨k, hk, -, rfl⟩ := (hmem2 k').1 hk'
    exact ⟨k, hk, (hgcid k).symm, (hgpin k).symm⟩
  · intro k hk hne
    exact ⟨g k, (hmem2 _).2 ⟨k, hk, hne, rfl⟩, hgcid k⟩

theorem Settled.toPending {db : DB} (h : Settled db) : Pending db :=
  { h.toWellformed with
    summaries := fun k hk _ => h.summaries k hk
    pendingKnown := by rw [h.nothingPending]; simp }

/-- The housekeeping has nothing to do on a settled database. -/
theorem updateChanged_settled {db committed : DB} (h : Settled db) :
    updateChanged none committed db = (db, none) := by
  have hset : ({ db with changed := [] } : DB) = db := by
    have := h.nothingPending
    cases db; simp_all
  have h0 : db.refreshCounts = db := by
    simp only [refreshCounts, h.nothingPending]
    simpa using hset
  have hcl : db.clusters.filter (fun r => !decide (r.featureCount = 0)) = db.clusters := by
    rw [List.filter_eq_self]
    intro k hk
    have he := h.summaries k hk
    have : k.featureCount ≠ 0 := by
      rw [he.featureCount, ne_eq, List.countP_eq_zero]
      push Not
      obtain ⟨r, hr, hrc⟩ := he.nonempty
      exact ⟨r, hr, by simpa using hrc⟩
    simp [this]
  simp only [updateChanged, h0, h.nothingPending, List.foldl_nil, deleteClusterRows, hcl, List.filter_nil]
  rw [hset, checked_ok (Settled.toPending h)]
  simp only []
  rw [hset]

end DB
end Hyperreal
