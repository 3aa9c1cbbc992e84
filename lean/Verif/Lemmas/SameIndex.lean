import Verif.Lemmas.FieldSummary
import Verif.Lemmas.IndexCall

/-! What `index` builds does not depend on batches, workers and timing. -/

namespace Hyperreal
open Spec

namespace DB

/-- Everything but the position tables, which are cut at the batches. -/
def withoutPositions (db : DB) : DB := { db with posIndex := [], posDocMap := [] }

theorem fkOk_withoutPositions (db : DB) : db.withoutPositions.fkOk = db.fkOk := rfl

theorem checked_withoutPositions (db : DB) : checked db.withoutPositions = (checked db).map withoutPositions := by
  unfold checked
  rw [fkOk_withoutPositions]
  split <;> rfl

theorem refreshUnion_withoutPositions (w : DB) (c : Int) (db : DB) :
    refreshUnion w.withoutPositions c db.withoutPositions = (refreshUnion w c db).withoutPositions := rfl

theorem refreshUnions_withoutPositions (w : DB) (cs : List Int) : ∀ db : DB,
    cs.foldl (fun d c => refreshUnion w.withoutPositions c d) db.withoutPositions =
      (cs.foldl (fun d c => refreshUnion w c d) db).withoutPositions := by
  induction cs with
  | nil => intro db; rfl
  | cons c cs ih => intro db; rw [List.foldl_cons, List.foldl_cons, refreshUnion_withoutPositions, ih]

theorem deleteClusterRows_withoutPositions (p : ClusterRow → Bool) (db : DB) :
    deleteClusterRows p db.withoutPositions = (deleteClusterRows p db).map withoutPositions := by
  exact checked_withoutPositions { db with
    clusters := db.clusters.filter (fun r => !p r)
    changed := db.changed.filter (fun c => !(db.clusters.filter p).any (fun r => decide (r.cid = c))) }

/-- The housekeeping neither reads nor writes the position tables. -/
theorem updateChanged_withoutPositions {w f : DB} (h : updateChanged none w w = (f, none)) :
    updateChanged none w.withoutPositions w.withoutPositions = (f.withoutPositions, none) := by
  have e : refreshCounts w.withoutPositions = (refreshCounts w).withoutPositions := rfl
  have ec : ∀ d : DB, d.withoutPositions.changed = d.changed := fun _ => rfl
  unfold updateChanged at h ⊢
  simp only [e, ec] at h ⊢
  rw [refreshUnions_withoutPositions, deleteClusterRows_withoutPositions]
  cases hd : deleteClusterRows (fun r => r.featureCount = 0)
      ((refreshCounts w).changed.foldl (fun d c => refreshUnion w c d) (refreshCounts w)) with
  | error err => rw [hd] at h; simp at h
  | ok d =>
    rw [hd] at h
    simp only [Prod.mk.injEq, and_true] at h
    subst h
    rfl

end DB

section
variable {corpus : Corpus} {content : Val → Features} {cfg1 cfg2 : IndexCfg} {s1 s2 : Schedule} {db : DB}

/-- Merging two sets of segments with the same groups. -/
theorem mergeSegments_same {g1 g2 : List SegRow} (keys : List (String × Val))
    (h : ∀ k, groupDocs g1 k = groupDocs g2 k ∧ groupCount g1 k = groupCount g2 k) : ∀ d : DB,
    d.mergeSegments g1 keys = d.mergeSegments g2 keys := by
  unfold DB.mergeSegments
  induction keys with
  | nil => intro d; rfl
  | cons k keys ih =>
    intro d
    rw [List.foldl_cons, List.foldl_cons]
    have : d.replaceFeature g1 k = d.replaceFeature g2 k := by
      have h1 : ∀ g : List SegRow, d.replaceFeature g k =
          { d with features :=
              d.features.filter (fun r => !(decide (r.fid = (match d.features.find? (fun r => r.field = k.1 ∧ r.value = k.2) with
                | some r => r.fid
                | none => d.nextFid)) || decide (r.field = k.1 ∧ r.value = k.2))) ++
              [⟨(match d.features.find? (fun r => r.field = k.1 ∧ r.value = k.2) with
                | some r => r.fid
                | none => d.nextFid), k.1, k.2, groupCount g k, groupDocs g k⟩] } := fun g => rfl
      rw [h1 g1, h1 g2, (h k).1, (h k).2]
    rw [this]
    exact ih _

theorem groups_same (hs : Serves corpus content) (hi1 : Indexable corpus content cfg1.positions)
    (hi2 : Indexable corpus content cfg2.positions) (hf1 : Fair s1) (hf2 : Fair s2) (k : String × Val) :
    groupDocs (tempSegs corpus cfg1 s1) k = groupDocs (tempSegs corpus cfg2 s2) k ∧
    groupCount (tempSegs corpus cfg1 s1) k = groupCount (tempSegs corpus cfg2 s2) k := by
  have t1 := tempOk corpus content cfg1 s1 hs hi1 hf1
  have t2 := tempOk corpus content cfg2 s2 hs hi2 hf2
  have hd : groupDocs (tempSegs corpus cfg1 s1) k = groupDocs (tempSegs corpus cfg2 s2) k := by
    ext d
    exact (t1.group_docs k.1 k.2 d).trans (t2.group_docs k.1 k.2 d).symm
  refine ⟨hd, ?_⟩
  rw [group_card _ k t1.segs_disjoint t1.segs_count, group_card _ k t2.segs_disjoint t2.segs_count, hd]

theorem tempKeys_same (hs : Serves corpus content) (hi1 : Indexable corpus content cfg1.positions)
    (hi2 : Indexable corpus content cfg2.positions) (hf1 : Fair s1) (hf2 : Fair s2)
    (hg : ∀ l l', l.Perm l' → s1.groupOrder l = s2.groupOrder l') : tempKeys corpus cfg1 s1 = tempKeys corpus cfg2 s2 := by
  have t1 := tempOk corpus content cfg1 s1 hs hi1 hf1
  have t2 := tempOk corpus content cfg2 s2 hs hi2 hf2
  unfold tempKeys
  apply hg
  rw [List.perm_ext_iff_of_nodup (List.nodup_dedup _) (List.nodup_dedup _)]
  intro k
  rw [List.mem_dedup, List.mem_dedup]
  exact (t1.occurs_iff_key k.1 k.2).trans (t2.occurs_iff_key k.1 k.2).symm

theorem writeFieldSummary_same {d1 d2 : DB} (hfeat : d1.features = d2.features)
    (hpos : ∀ f, ((d1.posIndex.filter (fun p => (d1.feature? p.fid).any (fun r => r.field = f))).map (·.count)).sum =
      ((d2.posIndex.filter (fun p => (d2.feature? p.fid).any (fun r => r.field = f))).map (·.count)).sum) :
    d1.writeFieldSummary.fieldSummary = d2.writeFieldSummary.fieldSummary := by
  simp only [DB.writeFieldSummary]
  rw [hfeat]
  apply List.filterMap_congr
  intro f _
  simp only [hpos f]

/-- The content committed by the first transaction, without positions, is the same. -/
theorem reindexed_same (hs : Serves corpus content) (hi1 : Indexable corpus content cfg1.positions)
    (hi2 : Indexable corpus content cfg2.positions) (hf1 : Fair s1) (hf2 : Fair s2)
    (hg : ∀ l l', l.Perm l' → s1.groupOrder l = s2.groupOrder l') (hw : Wellformed db) (hp : cfg1.positions = cfg2.positions) :
    (reindexed corpus cfg1 s1 db).withoutPositions = (reindexed corpus cfg2 s2 db).withoutPositions := by
  have hm : afterMerge corpus cfg1 s1 db = afterMerge corpus cfg2 s2 db := by
    unfold afterMerge
    rw [tempKeys_same hs hi1 hi2 hf1 hf2 hg]
    exact mergeSegments_same _ (groups_same hs hi1 hi2 hf1 hf2) _
  have hsum : (reindexed corpus cfg1 s1 db).fieldSummary = (reindexed corpus cfg2 s2 db).fieldSummary := by
    have e : ∀ cfg s, (reindexed corpus cfg s db).fieldSummary = (reindexed corpus cfg s db).writeFieldSummary.fieldSummary :=
      fun _ _ => rfl
    rw [e, e]
    apply writeFieldSummary_same
    · have := congrArg DB.features hm
      exact this
    · intro f
      rw [reindexed_positionCount hs hi1 hf1 hw f, reindexed_positionCount hs hi2 hf2 hw f, hp]
  have hfeat : (afterPositions corpus cfg1 s1 db).features = (afterPositions corpus cfg2 s2 db).features := by
    have := congrArg DB.features hm
    exact this
  have hfc : (reindexed corpus cfg1 s1 db).fc = (reindexed corpus cfg2 s2 db).fc := by
    show (afterPositions corpus cfg1 s1 db).refreshFcCounts.fc = (afterPositions corpus cfg2 s2 db).refreshFcCounts.fc
    simp only [DB.refreshFcCounts, DB.feature?, hfeat]
    have : (afterPositions corpus cfg1 s1 db).fc = (afterPositions corpus cfg2 s2 db).fc := by
      have := congrArg DB.fc hm
      exact this
    rw [this]
  have h1 : (reindexed corpus cfg1 s1 db).docKeys = (reindexed corpus cfg2 s2 db).docKeys := by
    have := congrArg DB.docKeys hm
    exact this
  have h2 : (reindexed corpus cfg1 s1 db).features = (reindexed corpus cfg2 s2 db).features := by
    have := congrArg DB.features hm
    exact this
  have h3 : (reindexed corpus cfg1 s1 db).clusters = (reindexed corpus cfg2 s2 db).clusters := by
    have := congrArg DB.clusters hm
    exact this
  have h4 : (reindexed corpus cfg1 s1 db).changed = (reindexed corpus cfg2 s2 db).changed := rfl
  revert h1 h2 h3 h4 hfc hsum
  generalize reindexed corpus cfg1 s1 db = a
  generalize reindexed corpus cfg2 s2 db = b
  obtain ⟨⟩ := a
  obtain ⟨⟩ := b
  intro hsum hfc h1 h2 h3 h4
  simp only at *
  subst hsum hfc h1 h2 h3 h4
  rfl

end
end Hyperreal
