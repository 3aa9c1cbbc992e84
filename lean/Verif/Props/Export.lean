import Verif.Props.Query
import Verif.Props.Indexing
import Std.Data.String.ToInt

/-!
# Properties of exporting a sample (C50)
-/

namespace Hyperreal.Props
open Spec Atomic DB

/-- The column that marks membership in a cluster, as documented for the exported table. -/
def clusterColumn (c : Int) : String := s!"cluster_{c}"

theorem clusterColumn_inj {a b : Int} (h : clusterColumn a = clusterColumn b) : a = b := by
  unfold clusterColumn at h
  have h' : "cluster_" ++ toString a = "cluster_" ++ toString b := by
    simpa [String.append_assoc] using h
  have h2 := congrArg String.toList h'
  rw [String.toList_append, String.toList_append] at h2
  exact Int.repr_injective (String.toList_injective (List.append_cancel_left h2))

theorem clusterColumn_ne_key (a : Int) : clusterColumn a ≠ "doc_key" := by
  intro h
  have h2 := congrArg String.toList h
  have : clusterColumn a = "cluster_" ++ toString a := by simp [clusterColumn]; rfl
  rw [this, String.toList_append] at h2
  simp at h2

theorem clusterColumn_ne_sampled (a : Int) : clusterColumn a ≠ "sampled_cluster" := by
  intro h
  have h2 := congrArg String.toList h
  have : clusterColumn a = "cluster_" ++ toString a := by simp [clusterColumn]; rfl
  rw [this, String.toList_append] at h2
  simp at h2

theorem markClusters_get (d : Nat) (f : String) : ∀ (clusters : Dict Int Bitmap) (doc : Rendered),
    Dict.get? (markClusters clusters d doc) f =
      if ∃ e ∈ clusters, d ∈ e.2 ∧ f = clusterColumn e.1 then some .mark else Dict.get? doc f := by
  intro clusters
  induction clusters with
  | nil => intro doc; simp [markClusters]
  | cons e cs ih =>
    intro doc
    have step : markClusters (e :: cs) d doc =
        markClusters cs d (if d ∈ e.2 then doc.set (clusterColumn e.1) .mark else doc) := rfl
    rw [step, ih]
    by_cases h1 : ∃ x ∈ cs, d ∈ x.2 ∧ f = clusterColumn x.1
    · obtain ⟨x, a, b, c⟩ := h1
      rw [if_pos ⟨x, a, b, c⟩, if_pos ⟨x, by simp [a], b, c⟩]
    · rw [if_neg h1]
      by_cases hd : d ∈ e.2
      · rw [if_pos hd, Dict.get?_set]
        by_cases hf : f = clusterColumn e.1
        · rw [if_pos hf, if_pos ⟨e, by simp, hd, hf⟩]
        · rw [if_neg hf, if_neg]
          rintro ⟨x, hx, h2, h3⟩
          rcases List.mem_cons.1 hx with rfl | hx
          · exact hf h3
          · exact h1 ⟨x, hx, h2, h3⟩
      · rw [if_neg hd, if_neg]
        rintro ⟨x, hx, h2, h3⟩
        rcases List.mem_cons.1 hx with rfl | hx
        · exact hd h2
        · exact h1 ⟨x, hx, h2, h3⟩

/-- What a row of the exported table has to hold for document `d`, sampled for cluster `c`: the cells of `columns` in
order, among them the key of the document, the cluster, the fields of the document (an absent one is empty), and a mark
for the clusters it belongs to. -/
def RowFor (content : Val → Rendered) (fields : List String) (db : DB) (clusters : Dict Int Bitmap)
    (columns : List String) (e : Int × Nat) (row : List (Option Cell)) : Prop :=
  ∃ (cell : String → Option Cell) (k : Val), row = columns.map cell ∧ (e.2, k) ∈ db.docKeys ∧
    cell "doc_key" = some (.key k) ∧ cell "sampled_cluster" = some (.cluster e.1) ∧
    (∀ f ∈ fields, cell f = Dict.get? (content k) f) ∧
    ∀ x ∈ clusters, cell (clusterColumn x.1) = if e.2 ∈ x.2 then some .mark else none

theorem sampleRows_spec {render : List Val → Except Err (List (Val × Rendered))} {content : Val → Rendered} {db : DB}
    (hr : ∀ ks, (∀ k ∈ ks, ∃ d, (d, k) ∈ db.docKeys) → render ks = .ok (ks.map (fun k => (k, content k))))
    (clusters : Dict Int Bitmap) (c : Int) (docs : Bitmap) (hd : ∀ d ∈ docs, ∃ k, (d, k) ∈ db.docKeys) :
    ∃ rows, sampleRows render db clusters c docs = .ok rows ∧
      List.Forall₂ (fun d r => ∃ k, (d, k) ∈ db.docKeys ∧ r = sampleRow clusters c d k (content k)) docs.elems rows := by
  obtain ⟨a1, -, a3⟩ := convertQuery_spec db docs.elems
  obtain ⟨keys, hk⟩ := a3 (fun d hd' => hd d (Bitmap.mem_elems.1 hd'))
  obtain ⟨b1, b2⟩ := a1 keys hk
  refine ⟨keys.map (fun x => sampleRow clusters c x.2 x.1 (content x.1)), ?_, ?_⟩
  · rw [sampleRows, hk]
    show (render (keys.map (fun (x : Val × Nat) => x.1)) >>= fun rendered => _) = _
    rw [hr _ (by intro k hk'; obtain ⟨x, hx, rfl⟩ := List.mem_map.1 hk'; exact ⟨x.2, b2 x hx⟩)]
    show Except.ok _ = Except.ok _
    rw [← b1]
    congr 1
    rw [List.map_map, List.zip_map', List.map_map]
    rfl
  · rw [← b1, List.forall₂_map_left_iff, List.forall₂_map_right_iff]
    exact List.forall₂_same.2 (fun x hx => ⟨x.1, b2 x hx, rfl⟩)

/-- **C50.** `export_document_sample`: for every sample whose documents are indexed, and a corpus that renders the
documents in the order of the keys it is given, the table has one row for every sampled document, in order: with its own
key and fields, the cluster it was sampled for, and a mark in the column of a cluster exactly when it belongs to it.
The corpus may not use the names of the added columns for its own fields. -/
theorem export_rows_aligned (render : List Val → Except Err (List (Val × Rendered))) (content : Val → Rendered)
    (fields : List String) (db : DB) (samples clusters : Dict Int Bitmap)
    (hr : ∀ ks, (∀ k ∈ ks, ∃ d, (d, k) ∈ db.docKeys) → render ks = .ok (ks.map (fun k => (k, content k))))
    (hd : ∀ e ∈ samples, ∀ d ∈ e.2, ∃ k, (d, k) ∈ db.docKeys)
    (hn : (Dict.keys clusters).Nodup)
    (hf : ∀ f ∈ fields, f ≠ "doc_key" ∧ f ≠ "sampled_cluster" ∧ ∀ x ∈ clusters, f ≠ clusterColumn x.1)
    (hc : ∀ k, ∀ x ∈ clusters, Dict.get? (content k) (clusterColumn x.1) = none) :
    ∃ rows columns, exportSample render fields db samples clusters = .ok rows ∧
      columns = ["doc_key", "sampled_cluster"] ++ fields ++
        ((Dict.keys clusters).insertionSort (· ≤ ·)).map clusterColumn ∧
      List.Forall₂ (RowFor content fields db clusters columns)
        (samples.flatMap (fun e => e.2.elems.map (fun d => (e.1, d)))) rows := by
  have key : ∀ l : Dict Int Bitmap, (∀ e ∈ l, ∀ d ∈ e.2, ∃ k, (d, k) ∈ db.docKeys) →
      ∃ rows, l.mapM (fun e => sampleRows render db clusters e.1 e.2) = .ok rows ∧
        List.Forall₂ (fun (e : Int × Nat) r => ∃ k, (e.2, k) ∈ db.docKeys ∧ r = sampleRow clusters e.1 e.2 k (content k))
          (l.flatMap (fun e => e.2.elems.map (fun d => (e.1, d)))) rows.flatten := by
    intro l
    induction l with
    | nil => intro _; exact ⟨[], rfl, by simp⟩
    | cons e l ih =>
      intro hl
      obtain ⟨rs, h1, h2⟩ := ih (fun x hx => hl x (by simp [hx]))
      obtain ⟨r, h3, h4⟩ := sampleRows_spec hr clusters e.1 e.2 (hl e (by simp))
      refine ⟨r :: rs, ?_, ?_⟩
      · rw [List.mapM_cons, h3, h1]; rfl
      · rw [List.flatMap_cons, List.flatten_cons]
        refine List.rel_append ?_ h2
        rw [List.forall₂_map_left_iff]
        exact h4
  obtain ⟨rows, h1, h2⟩ := key samples hd
  refine ⟨rows.flatten.map (fun doc => (sampleColumns fields clusters).map (fun f => Dict.get? doc f)),
    sampleColumns fields clusters, ?_, rfl, ?_⟩
  · rw [exportSample, h1]; rfl
  · rw [List.forall₂_map_right_iff]
    refine h2.imp ?_
    rintro ⟨c, d⟩ r ⟨k, hk, rfl⟩
    refine ⟨fun f => Dict.get? (sampleRow clusters c d k (content k)) f, k, rfl, hk, ?_, ?_, ?_, ?_⟩
    · simp only [sampleRow, markClusters_get]
      rw [if_neg, Dict.get?_set, if_neg (by decide), Dict.get?_set, if_pos rfl]
      rintro ⟨x, -, -, h⟩; exact clusterColumn_ne_key _ h.symm
    · simp only [sampleRow, markClusters_get]
      rw [if_neg, Dict.get?_set, if_pos rfl]
      rintro ⟨x, -, -, h⟩; exact clusterColumn_ne_sampled _ h.symm
    · intro f hf'
      obtain ⟨a, b, e⟩ := hf f hf'
      simp only [sampleRow, markClusters_get]
      rw [if_neg, Dict.get?_set, if_neg b, Dict.get?_set, if_neg a]
      rintro ⟨x, hx, -, h⟩; exact e x hx h
    · intro x hx
      simp only [sampleRow, markClusters_get]
      by_cases hm : d ∈ x.2
      · rw [if_pos ⟨x, hx, hm, rfl⟩, if_pos hm]
      · rw [if_neg, if_neg hm, Dict.get?_set, if_neg (clusterColumn_ne_sampled _), Dict.get?_set,
          if_neg (clusterColumn_ne_key _)]
        · exact hc k x hx
        · rintro ⟨y, hy, h3, h4⟩
          have h5 := clusterColumn_inj h4
          have : y = x := by
            have a := Dict.get?_of_mem hn (k := y.1) (v := y.2) hy
            have b := Dict.get?_of_mem hn (k := x.1) (v := x.2) hx
            rw [← h5, b] at a
            exact Prod.ext h5.symm (Option.some.inj a).symm
          exact hm (this ▸ h3)

/-- Two documents sampled for cluster 2 and one for cluster 1 of the example index. -/
example : (exportSample (fun ks => .ok (ks.map (fun k => (k, [("title", Cell.key k), ("other", Cell.mark)])))) ["title"]
      queryDb [(2, {0, 2}), (1, {1})] [(1, {1, 2}), (2, {0, 2})]).toOption =
    some [[some (.key (.text "k0")), some (.cluster 2), some (.key (.text "k0")), none, some .mark],
          [some (.key (.text "k2")), some (.cluster 2), some (.key (.text "k2")), some .mark, some .mark],
          [some (.key (.text "k1")), some (.cluster 1), some (.key (.text "k1")), some .mark, none]] := by
  decide +kernel

end Hyperreal.Props
