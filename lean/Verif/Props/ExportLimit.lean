import Verif.Props.PipelineSample
import Verif.Props.Csv

/-! # C62: `hyperreal export clusters --top-k-features k` on the command line -/

namespace Hyperreal.Props
open Atomic Spec Cli Migrate

/-- **C62** on the command line: with `--top-k-features k`, `k > 0`, on the file of a usable index, the file written reads back
as the header and, cluster by cluster, the `k` first features of the listing; the index file keeps its data. -/
theorem export_top_read_back (f : File) (hu : Usable f) (hid : isIndexDb f = true)
    (visitC : List ClusterRow → List ClusterRow) (visit : List Listed → List Listed)
    (k : Nat) (hk : 0 < k) (limit : Nat) (hlimit : 10 ≤ limit)
    (hfit : ∀ c ∈ topClusterFeatures visitC visit f.data k, ∀ x ∈ c.2.2,
      ∀ s ∈ [toString c.1, toString x.fid, x.field, written x.value, toString x.docsCount], s.length ≤ limit) :
    ∃ text, (Pipeline.exportClusters visitC visit k f).2 = .ok text ∧ (Pipeline.exportClusters visitC visit k f).1.data = f.data ∧
      Csv.read limit false {} text =
        .ok ["cluster_id", "feature_id", "field", "value", "docs_count"] ::
          (topClusterFeatures visitC visit f.data k).flatMap (fun c => c.2.2.map (fun x =>
            .ok [toString c.1, toString x.fid, x.field, written x.value, toString x.docsCount])) := by
  refine ⟨Csv.clustersFile visitC visit f.data k, ?_, ?_, exported_listing_read_back visitC visit f.data k hk limit hlimit hfit⟩
  · rw [Pipeline.exportClusters, if_pos hid, onIndex_usable _ hu]; rfl
  · rw [Pipeline.exportClusters, if_pos hid, onIndex_usable _ hu]; rfl

/-- **C62**: a negative `--top-k-features` exports every feature, as 0 does. -/
theorem export_negative_is_all (f : File) (hu : Usable f) (hsize : f.data.fc.length ≤ 2 ^ 62)
    (visitC : List ClusterRow → List ClusterRow) (visit : List Listed → List Listed) (hv : AnyOrder visit) (k : Int) (hk : k < 0) :
    Pipeline.exportClusters visitC visit k f = Pipeline.exportClusters visitC visit 0 f := by
  by_cases hid : isIndexDb f = true
  · rw [Pipeline.exportClusters, Pipeline.exportClusters, if_pos hid, if_pos hid, onIndex_usable _ hu, onIndex_usable _ hu]
    have hrow : ∀ c n, f.data.fc.length ≤ n → clusterFeatures visit f.data c n =
        orderDesc (·.docsCount) (visit (clusterRows f.data c)) := by
      intro c n hn
      rw [clusterFeatures, List.take_of_length_le]
      have h1 : (orderDesc (fun x : Listed => x.docsCount) (visit (clusterRows f.data c))).Perm (clusterRows f.data c) :=
        (orderDesc_perm _ _).trans (hv _)
      rw [h1.length_eq]
      refine le_trans ?_ hn
      refine (List.length_filterMap_le _ _).trans ?_
      exact List.length_filter_le _ _
    have key : Hyperreal.exportClusters visitC visit f.data (Pipeline.rowLimit f.data k) =
        Hyperreal.exportClusters visitC visit f.data (Pipeline.rowLimit f.data 0) := by
      have h0 : Pipeline.rowLimit f.data 0 = 0 := rfl
      have h1 : Pipeline.rowLimit f.data k = f.data.fc.length := if_pos hk
      rw [h0, h1]
      unfold Hyperreal.exportClusters topClusterFeatures
      rw [if_pos rfl]
      congr 1
      refine List.map_congr_left fun r _ => ?_
      rw [hrow _ _ hsize]
      split
      · rw [hrow _ _ hsize]
      · rw [hrow _ _ le_rfl]
    have key' : Csv.clustersFile visitC visit f.data (Pipeline.rowLimit f.data k) =
        Csv.clustersFile visitC visit f.data (Pipeline.rowLimit f.data 0) := by
      unfold Csv.clustersFile; rw [key]
    show (_, Except.ok (Csv.clustersFile visitC visit f.data (Pipeline.rowLimit f.data k))) =
      (_, Except.ok (Csv.clustersFile visitC visit f.data (Pipeline.rowLimit f.data 0)))
    rw [key']
  · rw [Pipeline.exportClusters, Pipeline.exportClusters, if_neg hid, if_neg hid]

/-- The file of an index whose tables are those of the example model. -/
def queryFile : File := { opened Faults.none File.empty with data := queryDb }

theorem queryFile_usable : Usable queryFile := by
  obtain ⟨-, -, c, -, -⟩ := open_creates File.empty rfl rfl rfl
  exact .inr ⟨⟨c.version, c.applicationId, c.tables, c.objects, c.obsolete, c.window⟩, queryDb_settled⟩

example : Usable queryFile ∧ isIndexDb queryFile = true ∧ queryFile.data.fc.length ≤ 2 ^ 62 ∧
    (Pipeline.exportClusters id id 1 queryFile).2.toOption = some (Csv.clustersFile id id queryDb 1) ∧
    (Pipeline.exportClusters id id (-3) queryFile).2.toOption = some (Csv.clustersFile id id queryDb 0) ∧
    (∀ c ∈ topClusterFeatures id id queryDb 1, ∀ x ∈ c.2.2,
      ∀ s ∈ [toString c.1, toString x.fid, x.field, written x.value, toString x.docsCount], s.length ≤ 100) := by
  refine ⟨queryFile_usable, ?_, ?_, ?_, ?_, ?_⟩
  · decide +kernel
  · show queryDb.fc.length ≤ _; decide +kernel
  · decide +kernel
  · decide +kernel
  · decide +kernel

end Hyperreal.Props
