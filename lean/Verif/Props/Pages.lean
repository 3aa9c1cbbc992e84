import Verif.Lemmas.PageForms
import Verif.Props.Links

/-!
# Properties of the pages (C75)
-/

namespace Hyperreal.Props
open Web Pages Spec Spec.Page

variable {σ : Type}

/-- The cluster page: whatever the index, its fields and values and its documents are called, a browser reads the tags of the
template, with the values as text. -/
theorem cluster_page_read (fmt : Format σ) (asDoc : String → Html.Doc) (i : String) (feature : Option Nat) (p : ClusterPage σ)
    (html : List Char) (h : clusterHtml fmt asDoc i feature p = some html) (hd : FinishedDocs asDoc p.results) :
    nodes html = clusterPageTags fmt asDoc i feature p := by
  unfold clusterPageTags
  rw [pageEntries_eq]
  unfold clusterHtml at h
  cases hr : resultBox asDoc p.type p.total p.results with
  | none => rw [hr] at h; simp at h
  | some x =>
    rw [hr] at h
    simp only [Option.bind_eq_bind, Option.bind_some, Option.pure_def, Option.some.injEq] at h
    subst h
    refine frame_whole _ _ _ _ _ (clusterNavLines_whole _) ?_
    exact ((((((((contextSearch_whole _ _ _).append (clusterMenuLines_whole _ _)).append (editLines_whole _)).append
      (clusterForms_whole _ _ _ _ _)).append (plain_whole _ _ _ (by decide +kernel) (by decide +kernel))).append
      (resultBox_whole _ _ _ _ _ hd hr)).append (plain_whole _ _ _ (by decide +kernel) (by decide +kernel))).append
      (clusterBox_whole _ _ _ _)).append (plain_whole _ _ _ (by decide +kernel) (by decide +kernel))

/-- The overview. -/
theorem index_page_read (fmt : Format σ) (asDoc : String → Html.Doc) (i : String) (p : IndexPage σ) (html : List Char)
    (h : indexHtml fmt asDoc i p = some html) (hd : FinishedDocs asDoc p.results) :
    nodes html = indexPageTags fmt asDoc i p := by
  unfold indexPageTags
  rw [overviewEntries_eq]
  unfold indexHtml at h
  cases hr : resultBox asDoc p.type p.total p.results with
  | none => rw [hr] at h; simp at h
  | some x =>
    rw [hr] at h
    simp only [Option.bind_eq_bind, Option.bind_some, Option.pure_def, Option.some.injEq] at h
    subst h
    refine frame_whole _ _ _ _ _ (indexNavLines_whole _) ?_
    refine ((((contextSearch_whole _ _ _).append (indexEditLines_whole _)).append (resultBox_whole _ _ _ _ _ hd hr)).append
      (whole_flatMap _ _ _ fun x _ => ?_)).append (plain_whole _ _ _ (by decide +kernel) (by decide +kernel))
    exact Whole.append (es := _ :: _) (Whole.append (es := [_]) (plain_whole (fun _ => "") ["<li>"] _ (by decide +kernel) (by decide +kernel))
      (listedCluster_whole _ _ _ _)) (plain_whole (fun _ => "") ["</li>"] _ (by decide +kernel) (by decide +kernel))

/-- The details. -/
theorem details_page_read (i : String) (summary : List FieldRow) (clusters : Nat) :
    nodes (detailsHtml i summary clusters) = detailsPageTags i summary clusters := by
  unfold detailsPageTags
  rw [written_eq]
  refine frame_whole _ _ _ _ _ ?_ ?_
  · have := lines_whole' (fun n => if n = "index_id" then i else toString clusters)
      ["<li><a href=\"/index/{{ index_id }}\">Model Overview</a></li>"]
      [⟨"li", [], ""⟩, ⟨"a", [("href", "/index/{{ index_id }}")], "Model Overview"⟩, ⟨"/a", [], ""⟩, ⟨"/li", [], ""⟩] (by decide +kernel)
    rw [List.map_cons, List.map_cons, List.map_cons, List.map_cons, List.map_nil] at this
    simp only [Pattern.node, List.map_nil, List.map_cons, textOf_pieces _ "" [] (by decide +kernel),
      textOf_pieces _ "Model Overview" [.inl "Model Overview"] (by decide +kernel), List.foldr_cons, List.foldr_nil, piece,
      String.append_empty] at this
    exact this
  · exact ((((summaryLines_whole _).append (whole_flatMap _ _ _ fun r _ => fieldLines_whole _)).append (recreateLines_whole _)).append
      (whole_flatMap _ _ _ fun r _ => optionLines_whole _)).append (detailsEndLines_whole _)

/-- The list of indexes. -/
theorem listing_page_read (path corpusType : String) : nodes (listingHtml path corpusType) = listingPageTags path corpusType :=
  frame_whole _ _ _ _ _ whole_nil (lines_whole' _ _ _ (by decide +kernel))

theorem resultBox_some (asDoc : String → Html.Doc) {type : String} {r : Results} (total : Nat) (ht : type ≠ "concordances")
    (hk : Results.kind r = "nothing" ∨ Results.kind r = (if type = "passage" then "passage" else "document")) :
    ∃ x, resultBox asDoc type total r = some x := by
  unfold resultBox
  by_cases h0 : resultCount r = 0
  · exact ⟨[], by rw [if_pos h0]⟩
  · rw [if_neg h0]
    have : ∃ y, resultList asDoc type r = some y := by
      unfold resultList
      cases r with
      | nothing => exact absurd rfl h0
      | concordance rs => simp [Results.kind] at hk; split at hk <;> simp at hk
      | passages rs =>
        have hp : type = "passage" := by
          by_contra hp
          simp [Results.kind, hp] at hk
        subst hp
        simp
      | documents rs =>
        have hp : type ≠ "passage" := by
          rintro rfl
          simp [Results.kind] at hk
        simp [ht, hp]
    obtain ⟨y, hy⟩ := this
    rw [hy]
    exact ⟨_, rfl⟩

theorem resultType_ne {t : Option String} (ht : t ≠ some "concordances") : resultType t ≠ "concordances" := by
  unfold resultType
  cases t with
  | none => decide
  | some x =>
    dsimp only
    split_ifs with h
    · decide
    · exact fun e => ht (by rw [e])

section
variable [LinearOrder σ]

theorem searchResults_either {w : Web σ} {t : Option String} {Q : Bitmap} {F : List FeatureRef} {C : List (List FeatureRef)} {n : Nat}
    {r : Results} (h : searchResults w (resultType t) Q F C n = .ok r) :
    Results.kind r = "nothing" ∨ Results.kind r = (if resultType t = "passage" then "passage" else "document") := by
  have := searchResults_kind h
  by_cases hc : w.corpus.isNone
  · rw [if_pos hc] at this; exact Or.inl this
  · rw [if_neg hc] at this; exact Or.inr this

/-- There is a page, unless concordances are asked for in the word of the templates (`concordances_fail`). -/
theorem cluster_page_shown_partial (fmt : Format σ) (asDoc : String → Html.Doc) (w : Web σ) (i : String) (c : Int) (f : Option Nat)
    (g : Option Int) (n : Nat) (t : Option String) (p : ClusterPage σ) (h : clusterPage w c f g n t = .ok p)
    (ht : t ≠ some "concordances") : ∃ html, clusterHtml fmt asDoc i f p = some html := by
  have key : p.type = resultType t ∧ (Results.kind p.results = "nothing" ∨
      Results.kind p.results = (if resultType t = "passage" then "passage" else "document")) := by
    unfold clusterPage at h
    by_cases hc : c ∈ clusterIds w.db
    · simp only [hc, not_true_eq_false, if_false] at h
      obtain ⟨_, -, h⟩ := bind_ok' h
      obtain ⟨_, -, h⟩ := bind_ok' h
      obtain ⟨_, -, h⟩ := bind_ok' h
      obtain ⟨_, -, h⟩ := bind_ok' h
      obtain ⟨_, -, h⟩ := bind_ok' h
      obtain ⟨r, hr, h⟩ := bind_ok' h
      cases h
      exact ⟨rfl, searchResults_either hr⟩
    · simp only [hc, not_false_eq_true, if_true] at h
      cases h
  obtain ⟨x, hx⟩ := resultBox_some asDoc p.total (resultType_ne ht) key.2
  unfold clusterHtml
  rw [key.1, hx]
  exact ⟨_, rfl⟩

/-- The same for the overview. -/
theorem index_page_shown_partial (fmt : Format σ) (asDoc : String → Html.Doc) (w : Web σ) (i : String) (f : Option Nat) (c : Option Int)
    (n k : Nat) (t : Option String) (p : IndexPage σ) (h : indexPage w f c n k t = .ok (some p)) (ht : t ≠ some "concordances") :
    ∃ html, indexHtml fmt asDoc i p = some html := by
  have key : p.type = resultType t ∧ (Results.kind p.results = "nothing" ∨
      Results.kind p.results = (if resultType t = "passage" then "passage" else "document")) := by
    unfold indexPage at h
    by_cases h0 : clusterIds w.db = []
    · rw [if_pos h0] at h; cases h
    · rw [if_neg h0] at h
      obtain ⟨q, hq, h⟩ := bind_ok' h
      cases q with
      | none => cases h; exact ⟨rfl, Or.inl rfl⟩
      | some x =>
        obtain ⟨D, F, C⟩ := x
        dsimp only at h
        by_cases hD : D = ∅
        · rw [if_pos hD] at h; cases h; exact ⟨rfl, Or.inl rfl⟩
        · rw [if_neg hD] at h
          obtain ⟨sorted, -, h⟩ := bind_ok' h
          obtain ⟨r, hr, h⟩ := bind_ok' h
          cases h
          exact ⟨rfl, searchResults_either hr⟩
  obtain ⟨x, hx⟩ := resultBox_some asDoc p.total (resultType_ne ht) key.2
  unfold indexHtml
  rw [key.1, hx]
  exact ⟨_, rfl⟩

end

/-- Refuted: asked for `concordances`, both pages fail when there are documents to show. -/
theorem concordances_fail (fmt : Format σ) (asDoc : String → Html.Doc) (i : String) (f : Option Nat) (rs : List (Nat × Val × String))
    (hr : rs ≠ []) :
    (∀ p : ClusterPage σ, p.type = "concordances" → p.results = .documents rs → clusterHtml fmt asDoc i f p = none) ∧
    (∀ p : IndexPage σ, p.type = "concordances" → p.results = .documents rs → indexHtml fmt asDoc i p = none) := by
  have h0 : ∀ total, resultBox asDoc "concordances" total (.documents rs) = none := by
    intro total
    unfold resultBox
    have : resultCount (.documents rs) ≠ 0 := by simpa [resultCount] using hr
    rw [if_neg this]
    simp [resultList]
  constructor
  · intro p h1 h2
    unfold clusterHtml
    rw [h1, h2, h0]
    rfl
  · intro p h1 h2
    unfold indexHtml
    rw [h1, h2, h0]
    rfl

/-! ## Links -/

theorem pageEntries_ids (fmt : Format σ) (x : Shown σ) : (pageEntries fmt x).map (·.fid) = x.ids := by
  cases x <;> simp [pageEntries, rankedEntry, countedEntry, Shown.ids, Function.comp_def]

theorem flatMap_singleton' {α β : Type} (l : List α) (f : α → β) : l.flatMap (fun a => [f a]) = l.map f := by
  induction l with
  | nil => rfl
  | cons a l ih => rw [List.flatMap_cons, List.map_cons, ih]; rfl

/-- The links a browser finds on a cluster page are those of `clusterLinks` (C72), with the links of the documents among
them. -/
theorem cluster_page_links (fmt : Format σ) (asDoc : String → Html.Doc) (i : String) (feature : Option Nat) (p : ClusterPage σ)
    (html : List Char) (h : clusterHtml fmt asDoc i feature p = some html) (hd : FinishedDocs asDoc p.results) :
    ∃ before after, before ++ after = clusterLinks i p ∧
      links (nodes html) = captioned before ++ docLinks asDoc p.results ++ captioned after := by
  rw [cluster_page_read fmt asDoc i feature p html h hd]
  refine ⟨baseLinks ++ [(.indexDetails, "/index/" ++ i ++ "/details"), (.modelOverview, "/index/" ++ i),
      (.clusterOverview, "/index/" ++ i ++ "/cluster/" ++ toString p.cluster)] ++
      (if p.prev ≠ 0 ∨ p.next ≠ 0 then
        [(.previousCluster, "/index/" ++ i ++ "/cluster/" ++ toString p.prev),
         (.nextCluster, "/index/" ++ i ++ "/cluster/" ++ toString p.next)] else []) ++
      [(.pivotByCluster, "/index/" ++ i ++ "/?cluster_id=" ++ toString p.cluster)],
    p.features.ids.map (fun f =>
      (.feature f, "/index/" ++ i ++ "/" ++ ("cluster/" ++ toString p.cluster ++ "/") ++ "?feature_id=" ++ toString f)), rfl, ?_⟩
  unfold clusterPageTags
  dsimp only
  rw [links_page]
  simp only [links_append, links_search, links_forms, links_results]
  rw [links_plain editTags _ (by decide +kernel)]
  have h1 : links [(⟨"/details", [], ""⟩ : Node), ⟨"ul", [("class", "cluster-list")], ""⟩] = [] := by simp [links]
  have h2 : links [(⟨"li", [], ""⟩ : Node)] = [] := by simp [links]
  have h3 : links [(⟨"/li", [], ""⟩ : Node), ⟨"/ul", [], ""⟩] = [] := by simp [links]
  have h4 : links (clusterBoxTags i p.cluster (pageEntries fmt p.features) feature) = captioned (p.features.ids.map (fun f =>
      (.feature f, "/index/" ++ i ++ "/" ++ ("cluster/" ++ toString p.cluster ++ "/") ++ "?feature_id=" ++ toString f))) := by
    unfold clusterBoxTags
    rw [links_append, links_append, links_plain _ _ (by decide +kernel), links_flatMap]
    simp only [links_entry, if_true, flatMap_singleton', ← pageEntries_ids fmt]
    simp [links, captioned, Function.comp_def, caption]
  rw [h1, h2, h3, h4]
  rw [links_patterns clusterNavTags _ [("/index/{{ index_id }}/details", "Index Details"), ("/index/{{ index_id }}", "Model Overview")]
    (by decide +kernel)]
  by_cases hn : p.prev ≠ 0 ∨ p.next ≠ 0
  · rw [decide_eq_true hn, if_pos hn, links_patterns (clusterMenuTags true) _
      [("/index/{{ index_id }}/cluster/{{ cluster_id }}", "Cluster Overview"),
       ("/index/{{ index_id }}/cluster/{{ prev_cluster_id }}", "Previous Cluster"),
       ("/index/{{ index_id }}/cluster/{{ next_cluster_id }}", "Next Cluster"),
       ("/index/{{ index_id }}/?cluster_id={{ cluster_id }}", "Pivot By Cluster")] (by decide +kernel)]
    simp only [List.map_cons, List.map_nil, textOf_details, textOf_index, textOf_cluster, textOf_prev, textOf_next, textOf_pivot,
      textOf_plain _ "Index Details" (by decide +kernel), textOf_plain _ "Model Overview" (by decide +kernel),
      textOf_plain _ "Cluster Overview" (by decide +kernel), textOf_plain _ "Previous Cluster" (by decide +kernel),
      textOf_plain _ "Next Cluster" (by decide +kernel), textOf_plain _ "Pivot By Cluster" (by decide +kernel)]
    simp [captioned, caption, baseLinks]
  · rw [decide_eq_false hn, if_neg hn, links_patterns (clusterMenuTags false) _
      [("/index/{{ index_id }}/cluster/{{ cluster_id }}", "Cluster Overview"),
       ("/index/{{ index_id }}/?cluster_id={{ cluster_id }}", "Pivot By Cluster")] (by decide +kernel)]
    simp only [List.map_cons, List.map_nil, textOf_details, textOf_index, textOf_cluster, textOf_pivot,
      textOf_plain _ "Index Details" (by decide +kernel), textOf_plain _ "Model Overview" (by decide +kernel),
      textOf_plain _ "Cluster Overview" (by decide +kernel), textOf_plain _ "Pivot By Cluster" (by decide +kernel)]
    simp [captioned, caption, baseLinks]

theorem overviewEntries_entries (fmt : Format σ) (x : Listing σ) :
    (overviewEntries fmt x).map (fun e => (e.1, e.2.2.map (·.fid))) = entries x := by
  cases x <;> simp [overviewEntries, rankedEntry, countedEntry, entries, Function.comp_def]

/-- The links of an overview are those of `indexLinks`, with the links of the documents among them. -/
theorem index_page_links (fmt : Format σ) (asDoc : String → Html.Doc) (i : String) (p : IndexPage σ) (html : List Char)
    (h : indexHtml fmt asDoc i p = some html) (hd : FinishedDocs asDoc p.results) :
    ∃ before after, before ++ after = indexLinks i p ∧
      links (nodes html) = captioned before ++ docLinks asDoc p.results ++ captioned after := by
  rw [index_page_read fmt asDoc i p html h hd]
  refine ⟨baseLinks ++ [(.indexDetails, "/index/" ++ i ++ "/details"), (.modelOverview, "/index/" ++ i),
      (.exportClusters, "/index/" ++ i ++ "/export_clusters")], (entries p.clusters).flatMap (entryLinks i p.feature p.cluster), rfl, ?_⟩
  unfold indexPageTags
  rw [links_page]
  rw [links_append, links_append, links_append, links_append, links_search, links_results, links_flatMap]
  rw [links_plain indexEditTags _ (by decide +kernel)]
  have h3 : links [(⟨"/ul", [], ""⟩ : Node)] = [] := by simp [links]
  have h4 : ∀ x, links (⟨"li", [], ""⟩ :: listedTags i p.feature p.cluster x ++ [⟨"/li", [], ""⟩]) =
      captioned (entryLinks i p.feature p.cluster (x.1, x.2.2.map (·.fid))) := by
    intro x
    rw [List.cons_append, links_node _ (by simp), links_append]
    have h5 : links [(⟨"/li", [], ""⟩ : Node)] = [] := by simp [links]
    rw [h5, List.append_nil]
    unfold listedTags
    rw [links_append, links_append, links_flatMap,
      links_plain (clusterHeadTags _ _) _ (by generalize decide (some x.1 = p.cluster) = b; cases b <;> decide +kernel)]
    simp only [links_entry, flatMap_singleton', List.nil_append, Bool.false_eq_true, if_false]
    cases hf : p.feature with
    | some f =>
      rw [links_patterns (clusterFootTags (some f).isSome p.cluster.isSome) _
        [("/index/{{ index_id }}/cluster/{{ cluster_id }}/?feature_id={{ highlight_feature_id }}", "Intersect selected feature"),
         ("/index/{{ index_id }}/?cluster_id={{ cluster_id }}", "Pivot")]
        (by rw [Option.isSome_some]; generalize p.cluster.isSome = b; cases b <;> decide +kernel)]
      simp only [List.map_cons, List.map_nil, textOf_byFeature, textOf_pivot,
        textOf_plain _ "Intersect selected feature" (by decide +kernel), textOf_plain _ "Pivot" (by decide +kernel)]
      simp [captioned, caption, entryLinks, Function.comp_def]
    | none =>
      cases hc : p.cluster with
      | some c =>
        rw [links_patterns (clusterFootTags (none : Option Nat).isSome (some c).isSome) _
          [("/index/{{ index_id }}/cluster/{{ cluster_id }}/?filter_cluster_id={{ highlight_cluster_id }}", "Intersect selected cluster"),
           ("/index/{{ index_id }}/?cluster_id={{ cluster_id }}", "Pivot")] (by rw [Option.isSome_some, Option.isSome_none]; decide +kernel)]
        simp only [List.map_cons, List.map_nil, textOf_byCluster, textOf_pivot,
          textOf_plain _ "Intersect selected cluster" (by decide +kernel), textOf_plain _ "Pivot" (by decide +kernel)]
        simp [captioned, caption, entryLinks, Function.comp_def]
      | none =>
        rw [links_patterns (clusterFootTags (none : Option Nat).isSome (none : Option Int).isSome) _
          [("/index/{{ index_id }}/cluster/{{ cluster_id }}", "See  all in cluster"),
           ("/index/{{ index_id }}/?cluster_id={{ cluster_id }}", "Pivot")] (by decide +kernel)]
        simp only [List.map_cons, List.map_nil, textOf_cluster, textOf_pivot,
          textOf_plain _ "See  all in cluster" (by decide +kernel), textOf_plain _ "Pivot" (by decide +kernel)]
        simp [captioned, caption, entryLinks, Function.comp_def]
  have h6 : (overviewEntries fmt p.clusters).flatMap
      (fun x => links (⟨"li", [], ""⟩ :: listedTags i p.feature p.cluster x ++ [⟨"/li", [], ""⟩])) =
      captioned ((entries p.clusters).flatMap (entryLinks i p.feature p.cluster)) := by
    simp only [h4]
    rw [← overviewEntries_entries fmt, List.flatMap_map]
    unfold captioned
    rw [List.map_flatMap]
  rw [h3, h6]
  rw [links_patterns indexNavTags _ [("/index/{{ index_id }}/details", "Index Details"), ("/index/{{ index_id }}", "Model Overview"),
    ("/index/{{ index_id }}/export_clusters", "Export Clusters")] (by decide +kernel)]
  simp only [List.map_cons, List.map_nil, textOf_details, textOf_index, textOf_export,
    textOf_plain _ "Index Details" (by decide +kernel), textOf_plain _ "Model Overview" (by decide +kernel),
    textOf_plain _ "Export Clusters" (by decide +kernel)]
  simp [captioned, caption, baseLinks]

/-- The links of the details and of the list of indexes, where the link of an index shows its path and the type of its
corpus. -/
theorem other_page_links (i : String) (summary : List FieldRow) (clusters : Nat) (path corpusType : String) :
    links (nodes (detailsHtml i summary clusters)) = captioned (detailsLinks i) ∧
    links (nodes (listingHtml path corpusType)) = captioned baseLinks ++ [("/index/0", path ++ ", " ++ corpusType)] := by
  constructor
  · rw [details_page_read]
    unfold detailsPageTags
    dsimp only
    rw [links_page]
    simp only [links_append, links_flatMap]
    rw [links_plain summaryTags _ (by decide +kernel), links_plain recreateTags _ (by decide +kernel),
      links_plain detailsEndTags _ (by decide +kernel)]
    simp only [links_plain fieldTags _ (by decide +kernel), links_plain optionTags _ (by decide +kernel), textOf_index]
    simp [links, captioned, caption, detailsLinks, baseLinks, Node.attr]
  · rw [listing_page_read]
    unfold listingPageTags
    rw [links_page, links_patterns listedIndexTags _ [("/index/{{ index_id }}", "{{ index_path }}, {{ corpus_class.CORPUS_TYPE }}")]
      (by decide +kernel), List.map_cons, List.map_nil, textOf_index, textOf_listed]
    simp [links]

/-! ## Examples -/

/-- Documents that are shown as text meet the hypotheses of the theorems. -/
theorem text_documents_finished (asDoc : String → Html.Doc) (ha : ∀ s, ∃ t, asDoc s = .text t) (r : Results) :
    FinishedDocs asDoc r ∧ FormFree asDoc r := by
  cases r with
  | documents rs =>
    constructor
    · intro x _ s hs
      obtain ⟨t, ht⟩ := ha x.2.2
      rw [ht] at hs
      cases hs
    · intro x _ s hs
      obtain ⟨t, ht⟩ := ha x.2.2
      rw [ht] at hs
      cases hs
  | _ => exact ⟨trivial, trivial⟩

/-- How scores and counts are written in the examples. -/
def demoFmt : Format Rat := ⟨fun q => toString q.num ++ "/" ++ toString q.den, fun n => toString n⟩

/-- The index of `demoWeb` with its field. -/
def fieldWeb : Web Rat := { demoWeb with db := { queryDb with fieldSummary := [⟨"t", 3, .text "a", .text "c", 0⟩] } }

theorem ok_of_map {ε α β : Type} {x : Except ε α} {f : α → β} {b : β} (h : x.toOption.map f = some b) : ∃ a, x = .ok a ∧ f a = b := by
  cases x with
  | error e => cases h
  | ok a => exact ⟨a, rfl, by simpa [Except.toOption] using h⟩

/-- A request for a cluster page with two documents gives a page; it is read as it should, and has the link of feature 2. -/
example : ∃ p html, clusterPage fieldWeb 1 (some 1) none 30 none = .ok p ∧ resultCount p.results = 2 ∧ p.fields = ["t"] ∧
    clusterHtml demoFmt Html.Doc.text "0" (some 1) p = some html ∧ nodes html = clusterPageTags demoFmt Html.Doc.text "0" (some 1) p ∧
    ("/index/0/cluster/1/?feature_id=2", "") ∈ links (nodes html) := by
  obtain ⟨p, hp, he⟩ := ok_of_map (x := clusterPage fieldWeb 1 (some 1) none 30 none)
    (f := fun p => (resultCount p.results, p.fields, p.cluster, p.features.ids)) (b := (2, ["t"], 1, [1, 2])) (by decide +kernel)
  obtain ⟨html, hh⟩ := cluster_page_shown_partial demoFmt Html.Doc.text fieldWeb "0" 1 (some 1) none 30 none p hp (by decide)
  have hd := (text_documents_finished Html.Doc.text (fun s => ⟨s, rfl⟩) p.results).1
  simp only [Prod.mk.injEq] at he
  refine ⟨p, html, hp, he.1, he.2.1, hh, cluster_page_read _ _ _ _ _ _ hh hd, ?_⟩
  obtain ⟨a, b, hab, hl⟩ := cluster_page_links _ _ _ _ _ _ hh hd
  have hm : (Label.feature 2, "/index/0/cluster/1/?feature_id=2") ∈ a ++ b := by
    rw [hab]
    unfold clusterLinks
    rw [he.2.2.1, he.2.2.2]
    refine List.mem_append_right _ (List.mem_map.2 ⟨2, by simp, by decide +kernel⟩)
  rw [hl]
  rcases List.mem_append.1 hm with hm | hm
  · exact List.mem_append_left _ (List.mem_append_left _ (List.mem_map.2 ⟨_, hm, rfl⟩))
  · exact List.mem_append_right _ (List.mem_map.2 ⟨_, hm, rfl⟩)

/-- The same request for `concordances` fails. -/
example : ∃ p, clusterPage fieldWeb 1 (some 1) none 30 (some "concordances") = .ok p ∧
    clusterHtml demoFmt Html.Doc.text "0" (some 1) p = none := by
  obtain ⟨p, hp, he⟩ := ok_of_map (x := clusterPage fieldWeb 1 (some 1) none 30 (some "concordances"))
    (f := fun p => (p.type, match p.results with | .documents rs => rs.length | _ => 0)) (b := ("concordances", 2)) (by decide +kernel)
  simp only [Prod.mk.injEq] at he
  refine ⟨p, hp, ?_⟩
  cases hr : p.results with
  | documents rs =>
    refine (concordances_fail demoFmt Html.Doc.text "0" (some 1) rs ?_).1 p he.1 hr
    rintro rfl
    rw [hr] at he
    simp at he
  | _ => rw [hr] at he; simp at he

/-- The overview with the documents of feature 1. -/
example : ∃ p html, indexPage fieldWeb (some 1) none 30 5 none = .ok (some p) ∧ resultCount p.results = 2 ∧
    indexHtml demoFmt Html.Doc.text "0" p = some html ∧ nodes html = indexPageTags demoFmt Html.Doc.text "0" p := by
  obtain ⟨q, hq, he⟩ := ok_of_map (x := indexPage fieldWeb (some 1) none 30 5 none)
    (f := fun q => q.map (fun p => resultCount p.results)) (b := some 2) (by decide +kernel)
  cases q with
  | none => cases he
  | some p =>
    obtain ⟨html, hh⟩ := index_page_shown_partial demoFmt Html.Doc.text fieldWeb "0" (some 1) none 30 5 none p hq (by decide)
    exact ⟨p, html, hq, by simpa using he, hh,
      index_page_read _ _ _ _ _ hh (text_documents_finished Html.Doc.text (fun s => ⟨s, rfl⟩) p.results).1⟩

/-- A field, its least and its greatest value that look like markup are shown as they are. -/
example : (⟨"td", [], "<script>"⟩ : Node) ∈ nodes (detailsHtml "0" [⟨"a&b\"", 1, .text "<script>", .text "</td>", 0⟩] 4) ∧
    (⟨"option", [("value", "a&b\"")], "a&b\""⟩ : Node) ∈ nodes (detailsHtml "0" [⟨"a&b\"", 1, .text "<script>", .text "</td>", 0⟩] 4) := by
  rw [details_page_read]
  decide +kernel

/-- A document of text that looks like markup is one item. -/
example : docTags (.text "</li><b>") = [⟨"li", [], "</li><b>"⟩, ⟨"/li", [], ""⟩] := rfl

/-- The template of tweets leaves its last tag open: the end of the item is lost in it. -/
theorem tweet_left_open : ∃ t : Html.Tweet, ¬ Finished (Html.tweetHtml t) ∧
    ∀ n ∈ nodes (Html.docList [.markup (Html.tweetHtml t)]), n.tag ≠ "/li" := by
  refine ⟨⟨"i", "u", "n", "1", "c", "t", "0", "0", "0", "0", "r"⟩, ?_, ?_⟩
  · unfold Finished; decide +kernel
  · decide +kernel

end Hyperreal.Props
