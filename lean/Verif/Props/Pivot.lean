import Verif.Lemmas.Pivot
import Verif.Props.Query

/-!
# Properties of pivoting and of the cluster graph (C31, C32, C33)
-/

namespace Hyperreal.Props
open Spec Atomic DB

variable {σ : Type} [LinearOrder σ]

/-- A document of the query is in the cluster. -/
def Touches (db : DB) (query : Bitmap) (c : Int) : Prop := ∃ d ∈ query, CoveredBy db c d

theorem isTop_filter {α : Type} [LinearOrder α] {k : Nat} {xs h : List α} (hk : Kept k xs h) (p : α → Prop) [DecidablePred p]
    (hp : ∀ x y, p x → x < y → p y) : IsTop k (fun x => x ∈ xs ∧ p x) (h.filter p).reverse where
  descending := by
    rw [List.pairwise_reverse]
    exact hk.asc.sublist List.filter_sublist
  members := fun x hx => by
    have := List.mem_filter.1 (List.mem_reverse.1 hx)
    exact ⟨hk.sub x this.1, by simpa using this.2⟩
  size := by
    rw [List.length_reverse]
    exact (List.length_filter_le _ _).trans hk.size
  best := fun x hx hn => by
    have hxh : x ∉ h := fun hh => hn (List.mem_reverse.2 (List.mem_filter.2 ⟨hh, by simpa using hx.2⟩))
    obtain ⟨h1, h2⟩ := hk.best x hx.1 hxh
    have : h.filter p = h := List.filter_eq_self.2 (fun y hy => by simpa using hp x y hx.2 (h2 y hy))
    rw [this]
    exact ⟨by simpa using h1, fun y hy => h2 y (List.mem_reverse.1 hy)⟩

/-- The features of a cluster that a pivot may list, as `(similarity, feature)`. -/
def Candidate (rd : Rat → σ) (db : DB) (query : Bitmap) (c : Int) (x : σ ×ₗ Int) : Prop :=
  ∃ f : Nat, assign db f = some c ∧ (query ∩ db.docsOf f).Nonempty ∧ x = toLex (similarity rd query (db.docsOf f), (f : Int))

/-- The result of pivoting one cluster: the `k` best candidates (ties decided by the feature id), each with its field
and value, in descending order of similarity. -/
structure Ranked (rd : Rat → σ) (db : DB) (query : Bitmap) (k : Nat) (c : Int) (results : List (Nat × String × Val × σ)) :
    Prop where
  best : ∃ L, IsTop k (Candidate rd db query c) L ∧ (results.map (fun r => toLex (r.2.2.2, (r.1 : Int)))).Perm L
  descending : (results.map (fun r => r.2.2.2)).Pairwise (· ≥ ·)
  named : ∀ r ∈ results, ∃ f ∈ db.features, f.fid = r.1 ∧ f.field = r.2.1 ∧ f.value = r.2.2.1

theorem forall₂_map_snd {α β : Type} {P : β → α × β → Prop} (hP : ∀ b x, P b x → x.2 = b) {l : List β} {r : List (α × β)}
    (h : List.Forall₂ P l r) : r.map (·.2) = l := by
  induction h with
  | nil => rfl
  | cons h _ ih => simp [hP _ _ h, ih]

/-- **C31** for one cluster: whatever the order in which SQLite lists the features and the heap holds its entries, for every
monotone rounding of the quotients that keeps positive ones positive. -/
theorem pivot_cluster_ranked (rd : Rat → σ) (hm : Monotone rd) (hpos : ∀ x, 0 < x → rd 0 < rd x)
    (visit : List Listed → List Listed) (hv : AnyOrder visit)
    (arrange : List (σ ×ₗ Int) → List (σ ×ₗ Int)) (ha : AnyOrder arrange)
    (db : DB) (hs : Settled db) (query D : Bitmap) (topK : Nat) (hk : 1 ≤ topK) (c : Int)
    (hsize : (featuresIn db c).length ≤ 2 ^ 62) (hD : clusterDocs db c = .ok D) (hc : ∀ d, d ∈ D ↔ CoveredBy db c d)
    (hit : (query ∩ D).Nonempty) :
    ∃ results, pivotCluster rd visit arrange db query topK (query ∩ D).card c = .ok (c, similarity rd query D, results) ∧
      Ranked rd db query topK c results := by
  have hw := hs.toWellformed
  set rows := clusterFeatures visit db c with hrows
  have hperm : rows.Perm (clusterRows db c) :=
    clusterFeatures_perm hv db c _ (by rw [← List.length_map (f := (·.fid)), clusterRows_fids hw]; exact hsize)
  have hmem : ∀ f : Listed, f ∈ rows ↔ _ := fun f => hperm.mem_iff.trans (mem_clusterRows hw c f)
  have hfids : (rows.map (·.fid)).Nodup := by
    rw [(hperm.map _).nodup_iff, clusterRows_fids hw]; exact featuresIn_nodup hw c
  have hsubD : ∀ f ∈ rows, db.docsOf f.fid ⊆ D := by
    intro f hf d hd
    exact (hc d).2 ⟨f.fid, ((hmem f).1 hf).1, hd⟩
  obtain ⟨bounded, hb1, hb2⟩ := mapM_ok_of_forall
    (P := fun f (x : σ × Listed) => x.2 = f ∧ jaccard rd query (db.docsOf f.fid) ≤ x.1)
    (fun f => (pivotBound rd query.card (query ∩ D).card f.docsCount).map (fun b => (b, f))) rows (by
      intro f hf
      obtain ⟨b, e1, e2⟩ := pivotBound_spec hm (hsubD f hf) hit
      refine ⟨(b, f), ?_, rfl, e2⟩
      rw [((hmem f).1 hf).2.2, e1]; rfl)
  have hsnd : bounded.map (·.2) = rows := forall₂_map_snd (fun b x h => h.1) hb2
  have hbound : ∀ x ∈ bounded, jaccard rd query (db.docsOf x.2.fid) ≤ x.1 := by
    intro x hx
    obtain ⟨i, hi, rfl⟩ := List.getElem_of_mem hx
    have := (List.forall₂_iff_get.1 hb2).2 i (by rw [hb2.length_eq]; exact hi) hi
    simp only [List.get_eq_getElem] at this
    rw [this.1]; exact this.2
  set order := orderDesc (fun (x : σ × Listed) => toLex (x.1, x.2.fid)) bounded with horder
  have hop : order.Perm bounded := orderDesc_perm _ _
  have hitems : ((order.map (fun x => pivotItem rd db query x.2))).Nodup := by
    have h1 : (order.map (fun x => x.2.fid)).Nodup := by
      rw [(hop.map _).nodup_iff]
      have : bounded.map (fun x => x.2.fid) = (bounded.map (·.2)).map (·.fid) := by simp
      rw [this, hsnd]; exact hfids
    have h2 : (order.map (fun x => pivotItem rd db query x.2)).map (fun y => (ofLex y).2) =
        (order.map (fun x => x.2.fid)).map (fun n => ((n : Nat) : Int)) := by
      simp [pivotItem, Function.comp_def]
    refine List.Nodup.of_map (fun y => (ofLex y).2) ?_
    rw [h2]
    exact h1.map (fun a b h => by exact_mod_cast h)
  have hdesc : order.Pairwise (fun a b => b.1 ≤ a.1) := by
    refine List.Pairwise.imp ?_ (orderDesc_sorted (fun (x : σ × Listed) => toLex (x.1, x.2.fid)) bounded)
    intro a b h
    rw [Prod.Lex.toLex_le_toLex] at h
    exact h.elim le_of_lt (fun h => le_of_eq h.1)
  obtain ⟨h', hl1, hl2⟩ := pivotLoop_spec rd db query topK hk order [] []
    ⟨by simp, by simp, by simp, by simp⟩ (by simpa using hitems)
    (fun x hx => ⟨jaccard_nonneg hm _ _, hbound x (hop.mem_iff.1 hx)⟩)
    hdesc
  rw [List.append_nil, List.length_nil, Nat.sub_zero] at hl1
  rw [List.nil_append] at hl2
  set heap := List.replicate (topK - h'.length) (toLex (rd 0, (-1 : Int))) ++ h' with hheap
  set kept := (arrange heap).filter (fun x => rd 0 < (ofLex x).1) with hkept
  have hkp : kept.Perm (h'.filter (fun x => rd 0 < (ofLex x).1)) := by
    refine ((ha heap).filter _).trans ?_
    rw [hheap, List.filter_append]
    have : (List.replicate (topK - h'.length) (toLex (rd 0, (-1 : Int)))).filter (fun x => rd 0 < (ofLex x).1) = [] := by
      rw [List.filter_eq_nil_iff]
      intro x hx
      rw [List.eq_of_mem_replicate hx]
      simp
    rw [this, List.nil_append]
  -- every kept entry has a row
  have hentry : ∀ x ∈ kept, ∃ r ∈ rows, pivotEntry rows x = some (r.fid, r.field, r.value, (ofLex x).1) ∧
      (r.fid : Int) = (ofLex x).2 := by
    intro x hx
    have h1 := hl2.sub x (List.mem_filter.1 (hkp.mem_iff.1 hx)).1
    obtain ⟨y, hy, rfl⟩ := List.mem_map.1 h1
    have hyr : y.2 ∈ rows := by rw [← hsnd]; exact List.mem_map.2 ⟨y, hop.mem_iff.1 hy, rfl⟩
    cases hq : rows.find? (fun r => (r.fid : Int) = (ofLex (pivotItem rd db query y.2)).2) with
    | none =>
      rw [List.find?_eq_none] at hq
      exact absurd (hq _ hyr) (by simp [pivotItem])
    | some r =>
      refine ⟨r, List.mem_of_find?_eq_some hq, by rw [pivotEntry, hq]; rfl, ?_⟩
      simpa using List.find?_some hq
  set entries := kept.filterMap (pivotEntry rows) with hentries
  have hback : ∀ l : List (σ ×ₗ Int), (∀ x ∈ l, ∃ r ∈ rows, pivotEntry rows x = some (r.fid, r.field, r.value, (ofLex x).1) ∧
      (r.fid : Int) = (ofLex x).2) → (l.filterMap (pivotEntry rows)).map (fun r => toLex (r.2.2.2, (r.1 : Int))) = l := by
    intro l
    induction l with
    | nil => intro _; rfl
    | cons x l ih =>
      intro h
      obtain ⟨r, -, e1, e2⟩ := h x (by simp)
      rw [List.filterMap_cons, e1]
      simp only [List.map_cons]
      rw [ih (fun y hy => h y (by simp [hy])), e2]
      rfl
  refine ⟨orderDesc (fun (r : Nat × String × Val × σ) => r.2.2.2) entries, ?_, ?_, ?_, ?_⟩
  · rw [pivotCluster, ← hrows, hb1]
    show (pivotLoop rd db query order (List.replicate topK (toLex (rd 0, (-1 : Int)))) >>= fun heap => _) = _
    rw [hl1]
    show (clusterDocs db c >>= fun docs => _) = _
    rw [hD]
    rfl
  · refine ⟨(h'.filter (fun x => rd 0 < (ofLex x).1)).reverse, ?_, ?_⟩
    · have := isTop_filter hl2 (fun x => rd 0 < (ofLex x).1) (by
        intro x y hx hxy
        exact lt_of_lt_of_le hx (Prod.Lex.monotone_fst_ofLex hxy.le))
      have heq : (fun x => x ∈ order.map (fun x => pivotItem rd db query x.2) ∧ rd 0 < (ofLex x).1) =
          Candidate rd db query c := by
        funext x
        rw [eq_iff_iff]
        constructor
        · rintro ⟨h1, h2⟩
          obtain ⟨y, hy, rfl⟩ := List.mem_map.1 h1
          have hyr : y.2 ∈ rows := by rw [← hsnd]; exact List.mem_map.2 ⟨y, hop.mem_iff.1 hy, rfl⟩
          exact ⟨y.2.fid, ((hmem _).1 hyr).1, (jaccard_pos_iff hpos _ _).1 h2, rfl⟩
        · rintro ⟨f, h1, h2, rfl⟩
          have hf : f ∈ rows.map (·.fid) := by
            rw [(hperm.map _).mem_iff, clusterRows_fids hw, mem_featuresIn hw]; exact h1
          obtain ⟨r, hr, rfl⟩ := List.mem_map.1 hf
          refine ⟨?_, (jaccard_pos_iff hpos _ _).2 h2⟩
          rw [← hsnd] at hr
          obtain ⟨y, hy, rfl⟩ := List.mem_map.1 hr
          exact List.mem_map.2 ⟨y, hop.mem_iff.2 hy, rfl⟩
      rw [← heq]; exact this
    · refine ((orderDesc_perm _ _).map _).trans ?_
      rw [hentries, hback kept hentry]
      exact hkp.trans (List.reverse_perm _).symm
  · rw [List.pairwise_map]
    exact orderDesc_sorted _ _
  · intro r hr
    have hr' := (orderDesc_perm _ _).mem_iff.1 hr
    obtain ⟨x, hx, hxr⟩ := List.mem_filterMap.1 hr'
    obtain ⟨y, hy, e1, -⟩ := hentry x hx
    rw [e1] at hxr
    cases hxr
    obtain ⟨g, h1, h2, h3, h4⟩ := ((hmem y).1 hy).2.1
    exact ⟨g, h1, h2, h3, h4⟩

/-- The documents of a cluster; empty for an unknown one. -/
def docsOfCluster (db : DB) (c : Int) : Bitmap :=
  match clusterDocs db c with
  | .ok D => D
  | .error _ => ∅

theorem docsOfCluster_spec {db : DB} (hs : Settled db) {c : Int} (hc : hasCluster db c) :
    clusterDocs db c = .ok (docsOfCluster db c) ∧ ∀ d, d ∈ docsOfCluster db c ↔ CoveredBy db c d := by
  obtain ⟨D, h1, h2⟩ := clusterDocs_spec hs c hc
  rw [docsOfCluster, h1]
  exact ⟨rfl, h2⟩

theorem touches_iff {db : DB} (hs : Settled db) {c : Int} (hc : hasCluster db c) (query : Bitmap) :
    (query ∩ docsOfCluster db c).Nonempty ↔ Touches db query c := by
  simp only [Finset.Nonempty, Finset.mem_inter, (docsOfCluster_spec hs hc).2, Touches]

/-- What a worker reports for one cluster. -/
def weightOf (rd : Rat → σ) (db : DB) (query : Bitmap) (c : Int) : Int × σ × Nat :=
  (c, similarity rd query (docsOfCluster db c), (query ∩ docsOfCluster db c).card)

theorem queryCooccurrence_spec (rd : Rat → σ) {db : DB} (hs : Settled db) (query : Bitmap) : ∀ cs : List Int,
    (∀ c ∈ cs, hasCluster db c) → queryCooccurrence rd db query cs =
      .ok ((cs.filter (fun c => (query ∩ docsOfCluster db c).Nonempty)).map (weightOf rd db query))
  | [], _ => rfl
  | c :: cs, h => by
    have hc := (docsOfCluster_spec hs (h c (by simp))).1
    rw [queryCooccurrence, hc, queryCooccurrence_spec rd hs query cs (fun x hx => h x (by simp [hx]))]
    show Except.ok _ = Except.ok _
    by_cases he : (query ∩ docsOfCluster db c).Nonempty
    · rw [if_neg (fun h0 => by rw [Finset.card_eq_zero] at h0; exact Finset.not_nonempty_empty (h0 ▸ he)),
        List.filter_cons_of_pos (by simpa using he)]
      rfl
    · rw [if_pos (by rw [Finset.card_eq_zero]; exact Finset.not_nonempty_iff_eq_empty.1 he),
        List.filter_cons_of_neg (by simpa using he)]

theorem queryCooccurrence_unknown (rd : Rat → σ) {db : DB} (hs : Settled db) (query : Bitmap) : ∀ cs : List Int,
    (∃ c ∈ cs, ¬ hasCluster db c) → queryCooccurrence rd db query cs = .error .indexError
  | [], h => by simp at h
  | c :: cs, h => by
    by_cases hc : hasCluster db c
    · rw [queryCooccurrence, (docsOfCluster_spec hs hc).1]
      obtain ⟨x, hx, hn⟩ := h
      rcases List.mem_cons.1 hx with rfl | hx
      · exact absurd hc hn
      · show (queryCooccurrence rd db query cs >>= fun rest => _) = _
        rw [queryCooccurrence_unknown rd hs query cs ⟨x, hx, hn⟩]
        rfl
    · rw [queryCooccurrence, clusterDocs_unknown c hc]; rfl

theorem mapM_ok_map {α β : Type} (f : α → Except Err β) (g : α → β) : ∀ l : List α, (∀ a ∈ l, f a = .ok (g a)) →
    l.mapM f = .ok (l.map g)
  | [], _ => rfl
  | a :: l, h => by
    rw [List.mapM_cons, h a (by simp), mapM_ok_map f g l (fun x hx => h x (by simp [hx]))]; rfl

/-- The clusters a pivot is about: the requested ones, or all when none are given. -/
def Requested (db : DB) (ids : List Int) (c : Int) : Prop := if ids = [] then hasCluster db c else c ∈ ids

/-- **C32**, and **C31** for the whole method.  For every model at rest, every query and every list of distinct existing
clusters (or none: all clusters), whatever the number of workers, the order in which the jobs complete and the order in which
rows are read: the pivot succeeds, yields exactly the requested clusters sharing a document with the query, each once, in
descending order of similarity, each with the similarity of its documents and its best features. -/
theorem pivot_clusters_spec (rd : Rat → σ) (hm : Monotone rd) (hpos : ∀ x, 0 < x → rd 0 < rd x)
    (visitC : List ClusterRow → List ClusterRow) (hvC : AnyOrder visitC)
    (visit : Int → List Listed → List Listed) (hv : ∀ c, AnyOrder (visit c))
    (arrange : Int → List (σ ×ₗ Int) → List (σ ×ₗ Int)) (ha : ∀ c, AnyOrder (arrange c))
    (workers : Nat) (hwk : 1 ≤ workers)
    (completed : List (List (Int × σ × Nat)) → List (List (Int × σ × Nat))) (hcomp : AnyOrder completed)
    (db : DB) (hs : Settled db) (hsize : ∀ c, (featuresIn db c).length ≤ 2 ^ 62)
    (query : Bitmap) (ids : List Int) (hids : ids.Nodup) (hex : ∀ c ∈ ids, hasCluster db c) (topK : Nat) (hk : 1 ≤ topK) :
    ∃ out, pivotClusters rd visitC visit arrange workers completed db query ids topK = .ok out ∧
      (out.map (·.1)).Nodup ∧
      (∀ c, c ∈ out.map (·.1) ↔ Requested db ids c ∧ Touches db query c) ∧
      (out.map (·.2.1)).Pairwise (· ≥ ·) ∧
      ∀ x ∈ out, (∃ D : Bitmap, (∀ d, d ∈ D ↔ CoveredBy db x.1 d) ∧ x.2.1 = similarity rd query D) ∧
        Ranked rd db query topK x.1 x.2.2 := by
  obtain ⟨all, hall, hnd, hreq⟩ : ∃ all : List Int,
      (if ids.isEmpty then (orderDesc (·.featureCount) (visitC db.clusters)).map (·.cid) else ids) = all ∧ all.Nodup ∧
      ∀ c, c ∈ all ↔ Requested db ids c := by
    refine ⟨_, rfl, ?_, ?_⟩
    · split
      · rw [(((orderDesc_perm _ _).trans (hvC _)).map _).nodup_iff]
        exact hs.toWellformed.clusterIds
      · exact hids
    · intro c
      cases ids with
      | nil =>
        simp only [List.isEmpty_nil, if_true, Requested]
        rw [(((orderDesc_perm _ _).trans (hvC _)).map _).mem_iff]
        simp [hasCluster]
      | cons a l => simp [Requested]
  have hallex : ∀ c ∈ all, hasCluster db c := by
    intro c hc
    have := (hreq c).1 hc
    unfold Requested at this
    split at this
    · exact this
    · exact hex c this
  have hw := mapM_ok_map (fun i => queryCooccurrence rd db query (everyNth all i (workers * 2)))
    (fun i => ((everyNth all i (workers * 2)).filter (fun c => (query ∩ docsOfCluster db c).Nonempty)).map (weightOf rd db query))
    (List.range (workers * 2)) (by
      intro i _
      exact queryCooccurrence_spec rd hs query _ (fun c hc => hallex c (everyNth_mem_of hc)))
  set ws := (List.range (workers * 2)).map
    (fun i => ((everyNth all i (workers * 2)).filter (fun c => (query ∩ docsOfCluster db c).Nonempty)).map (weightOf rd db query))
    with hws
  have hflat : (completed ws).flatten.Perm
      ((all.filter (fun c => (query ∩ docsOfCluster db c).Nonempty)).map (weightOf rd db query)) := by
    refine (hcomp ws).flatten.trans ?_
    have e : ws.flatten = (((List.range (workers * 2)).flatMap (fun i => everyNth all i (workers * 2))).filter
        (fun c => (query ∩ docsOfCluster db c).Nonempty)).map (weightOf rd db query) := by
      rw [hws, List.filter_flatMap, List.map_flatMap, List.flatMap_def]
    rw [e]
    exact ((deal_perm all (workers * 2) (by omega)).filter _).map _
  set order := orderDesc (fun (w : Int × σ × Nat) => w.2.1) (completed ws).flatten with horder
  have hop : order.Perm ((all.filter (fun c => (query ∩ docsOfCluster db c).Nonempty)).map (weightOf rd db query)) :=
    (orderDesc_perm _ _).trans hflat
  have hmem : ∀ w ∈ order, ∃ c, w = weightOf rd db query c ∧ c ∈ all ∧ (query ∩ docsOfCluster db c).Nonempty := by
    intro w hw
    obtain ⟨c, hc, rfl⟩ := List.mem_map.1 (hop.mem_iff.1 hw)
    have := List.mem_filter.1 hc
    exact ⟨c, rfl, this.1, by simpa using this.2⟩
  obtain ⟨out, ho1, ho2⟩ := mapM_ok_of_forall
    (P := fun (w : Int × σ × Nat) (x : Int × σ × List (Nat × String × Val × σ)) =>
      x.1 = w.1 ∧ x.2.1 = w.2.1 ∧ Ranked rd db query topK x.1 x.2.2)
    (fun w => pivotCluster rd (visit w.1) (arrange w.1) db query topK w.2.2 w.1) order (by
      intro w hw
      obtain ⟨c, rfl, hc, hne⟩ := hmem w hw
      obtain ⟨a, b⟩ := docsOfCluster_spec hs (hallex c hc)
      obtain ⟨results, h1, h2⟩ := pivot_cluster_ranked rd hm hpos (visit c) (hv c) (arrange c) (ha c) db hs query
        (docsOfCluster db c) topK hk c (hsize c) a b hne
      exact ⟨_, h1, rfl, rfl, h2⟩)
  have hf1 : out.map (·.1) = order.map (·.1) := by
    clear_value order
    clear ho1 hmem hop horder
    induction ho2 with
    | nil => rfl
    | cons h _ ih => simp [h.1, ih]
  have hf2 : out.map (·.2.1) = order.map (·.2.1) := by
    clear_value order
    clear ho1 hmem hop horder hf1
    induction ho2 with
    | nil => rfl
    | cons h _ ih => simp [h.2.1, ih]
  have hp1 : (order.map (·.1)).Perm (all.filter (fun c => (query ∩ docsOfCluster db c).Nonempty)) := by
    have := hop.map (fun w : Int × σ × Nat => w.1)
    rwa [List.map_map, show ((fun w : Int × σ × Nat => w.1) ∘ weightOf rd db query) = id from rfl, List.map_id] at this
  refine ⟨out, ?_, ?_, ?_, ?_, ?_⟩
  · rw [pivotClusters, hall]
    show ((List.range (workers * 2)).mapM (fun i => queryCooccurrence rd db query (everyNth all i (workers * 2))) >>=
      fun weights => _) = _
    rw [hw]
    exact ho1
  · rw [hf1, hp1.nodup_iff]
    exact hnd.filter _
  · intro c
    rw [hf1, hp1.mem_iff, List.mem_filter, hreq]
    constructor
    · rintro ⟨h1, h2⟩
      exact ⟨h1, (touches_iff hs (hallex c ((hreq c).2 h1)) query).1 (by simpa using h2)⟩
    · rintro ⟨h1, h2⟩
      exact ⟨h1, by simpa using (touches_iff hs (hallex c ((hreq c).2 h1)) query).2 h2⟩
  · rw [hf2, List.pairwise_map]
    exact orderDesc_sorted _ _
  · intro x hx
    obtain ⟨i, hi, rfl⟩ := List.getElem_of_mem hx
    have h2 := (List.forall₂_iff_get.1 ho2).2 i (by rw [ho2.length_eq]; exact hi) hi
    simp only [List.get_eq_getElem] at h2
    obtain ⟨c, e, hc, -⟩ := hmem (order[i]'(by rw [ho2.length_eq]; exact hi)) (List.getElem_mem _)
    rw [e] at h2
    refine ⟨⟨docsOfCluster db c, ?_, h2.2.1⟩, h2.2.2⟩
    rw [h2.1]
    exact (docsOfCluster_spec hs (hallex c hc)).2

/-- A requested cluster that does not exist makes the pivot raise `IndexError`. -/
theorem pivot_unknown_cluster (rd : Rat → σ) (visitC : List ClusterRow → List ClusterRow)
    (visit : Int → List Listed → List Listed) (arrange : Int → List (σ ×ₗ Int) → List (σ ×ₗ Int))
    (workers : Nat) (hwk : 1 ≤ workers)
    (completed : List (List (Int × σ × Nat)) → List (List (Int × σ × Nat)))
    (db : DB) (hs : Settled db) (query : Bitmap) (ids : List Int) (c : Int) (hc : c ∈ ids) (hn : ¬ hasCluster db c)
    (topK : Nat) :
    pivotClusters rd visitC visit arrange workers completed db query ids topK = .error .indexError := by
  have hne : ids.isEmpty = false := by cases ids with
    | nil => simp at hc
    | cons a l => rfl
  have key : ∀ l : List Nat, (∃ i ∈ l, ∃ c ∈ everyNth ids i (workers * 2), ¬ hasCluster db c) →
      l.mapM (fun i => queryCooccurrence rd db query (everyNth ids i (workers * 2))) = .error .indexError := by
    intro l
    induction l with
    | nil => simp
    | cons i l ih =>
      intro h
      rw [List.mapM_cons]
      by_cases hi : ∃ c ∈ everyNth ids i (workers * 2), ¬ hasCluster db c
      · rw [queryCooccurrence_unknown rd hs query _ hi]; rfl
      · rw [queryCooccurrence_spec rd hs query _ (by
          intro x hx; by_contra hh; exact hi ⟨x, hx, hh⟩)]
        obtain ⟨j, hj, h2⟩ := h
        rcases List.mem_cons.1 hj with rfl | hj
        · exact absurd h2 hi
        · show (l.mapM (fun i => queryCooccurrence rd db query (everyNth ids i (workers * 2))) >>= fun x => _) = _
          rw [ih ⟨j, hj, h2⟩]; rfl
  have hm : c ∈ (List.range (workers * 2)).flatMap (fun i => everyNth ids i (workers * 2)) :=
    (deal_perm ids (workers * 2) (by omega)).mem_iff.2 hc
  obtain ⟨i, hi, hci⟩ := List.mem_flatMap.1 hm
  rw [pivotClusters]
  simp only [hne, Bool.false_eq_true, if_false]
  show ((List.range (workers * 2)).mapM (fun i => queryCooccurrence rd db query (everyNth ids i (workers * 2))) >>=
      fun weights => _) = _
  rw [key _ ⟨i, hi, c, hci, hn⟩]
  rfl

/-- `top_k = 0`: pivoting a cluster that the query touches raises `IndexError` instead of returning no features. -/
theorem pivot_top_zero_fails (rd : Rat → σ) (hm : Monotone rd)
    (visit : List Listed → List Listed) (hv : AnyOrder visit) (arrange : List (σ ×ₗ Int) → List (σ ×ₗ Int))
    (db : DB) (hs : Settled db) (query D : Bitmap) (c : Int) (hsize : (featuresIn db c).length ≤ 2 ^ 62)
    (hc : ∀ d, d ∈ D ↔ CoveredBy db c d) (hit : (query ∩ D).Nonempty) :
    pivotCluster rd visit arrange db query 0 (query ∩ D).card c = .error .indexError := by
  have hw := hs.toWellformed
  set rows := clusterFeatures visit db c with hrows
  have hperm : rows.Perm (clusterRows db c) :=
    clusterFeatures_perm hv db c _ (by rw [← List.length_map (f := (·.fid)), clusterRows_fids hw]; exact hsize)
  have hmem : ∀ f : Listed, f ∈ rows ↔ _ := fun f => hperm.mem_iff.trans (mem_clusterRows hw c f)
  obtain ⟨bounded, hb1, hb2⟩ := mapM_ok_of_forall (P := fun f (x : σ × Listed) => True)
    (fun f => (pivotBound rd query.card (query ∩ D).card f.docsCount).map (fun b => (b, f))) rows (by
      intro f hf
      obtain ⟨b, e1, e2⟩ := pivotBound_spec (docs := db.docsOf f.fid) hm
        (fun d hd => (hc d).2 ⟨f.fid, ((hmem f).1 hf).1, hd⟩) hit
      refine ⟨(b, f), ?_, trivial⟩
      rw [((hmem f).1 hf).2.2, e1]; rfl)
  have hne : orderDesc (fun (x : σ × Listed) => toLex (x.1, x.2.fid)) bounded ≠ [] := by
    intro h
    have h1 := (orderDesc_perm (fun (x : σ × Listed) => toLex (x.1, x.2.fid)) bounded).length_eq
    rw [h, ← hb2.length_eq] at h1
    have h2 : rows = [] := List.length_eq_zero_iff.1 h1.symm
    obtain ⟨d, hd⟩ := hit
    obtain ⟨f, hf, -⟩ := (hc d).1 (Finset.mem_inter.1 hd).2
    have : f ∈ rows.map (·.fid) := by
      rw [(hperm.map _).mem_iff, clusterRows_fids hw, mem_featuresIn hw]; exact hf
    rw [h2] at this
    simp at this
  obtain ⟨x, l, hx⟩ := List.exists_cons_of_ne_nil hne
  rw [pivotCluster, ← hrows, hb1]
  show (pivotLoop rd db query (orderDesc (fun (x : σ × Listed) => toLex (x.1, x.2.fid)) bounded) [] >>= fun heap => _) = _
  rw [hx, pivotLoop]
  rfl

set_option synthInstance.maxSize 1000 in
/-- The example index with its three clusters: documents of cluster 1 are {0,1,2}, of cluster 2 {0,2}, of cluster 3 {1}. -/
example : (pivotClusters (σ := Rat) id id (fun _ => id) (fun _ => id) 2 List.reverse queryDb {0, 2} [] 1).toOption =
    some [((2 : Int), (1 : Rat), [((4 : Nat), "n", Val.int 5, (1 : Rat))]), (1, 2 / 3, [(2, "t", .text "a", 1 / 3)])] := by
  decide +kernel

/-! ## The graph -/

/-- Two edges that do not connect the same two nodes. -/
def Apart (e f : (Int × Int) × σ) : Prop := e.1 ≠ f.1 ∧ e.1 ≠ f.1.swap

theorem foldl_addEdge (l : List ((Int × Int) × σ)) : ∀ g : Graph σ, (g.edges ++ l).Pairwise Apart →
    (l.foldl (fun g e => g.addEdge e.1.1 e.1.2 e.2) g) = { g with edges := g.edges ++ l } := by
  induction l with
  | nil => intro g _; simp
  | cons e l ih =>
    intro g h
    have hstep : g.addEdge e.1.1 e.1.2 e.2 = { g with edges := g.edges ++ [e] } := by
      unfold Graph.addEdge
      have : g.edges.filter (fun x => ¬ (x.1 = (e.1.1, e.1.2) ∨ x.1 = (e.1.2, e.1.1))) = g.edges := by
        rw [List.filter_eq_self]
        intro x hx
        have := (List.pairwise_append.1 h).2.2 x hx e (by simp)
        simpa [Apart, Prod.swap] using this
      rw [this]
    rw [List.foldl_cons, hstep, ih _ (by simpa using h)]
    simp

theorem foldl_addNode (l : List (Int × Nat × String)) : ∀ g : Graph σ, ((g.nodes ++ l).map (·.1)).Nodup →
    l.foldl Graph.addNode g = { g with nodes := g.nodes ++ l } := by
  induction l with
  | nil => intro g _; simp
  | cons e l ih =>
    intro g h
    have hstep : g.addNode e = { g with nodes := g.nodes ++ [e] } := by
      unfold Graph.addNode
      have : g.nodes.filter (fun m => m.1 ≠ e.1) = g.nodes := by
        rw [List.filter_eq_self]
        intro x hx
        rw [List.map_append] at h
        have := (List.nodup_append.1 h).2.2 x.1 (List.mem_map.2 ⟨x, hx, rfl⟩) e.1 (by simp)
        simpa using this
      rw [this]
    rw [List.foldl_cons, hstep, ih _ (by simpa using h)]
    simp

/-- The edges a finished comparison adds. -/
def edgesOf (r : Int × List (Int × σ × Nat)) : List ((Int × Int) × σ) := r.2.map (fun w => ((r.1, w.1), w.2.1))

theorem foldl_results (l : List (Int × List (Int × σ × Nat))) (g : Graph σ) :
    l.foldl (fun g r => r.2.foldl (fun g w => g.addEdge r.1 w.1 w.2.1) g) g =
      (l.flatMap edgesOf).foldl (fun g e => g.addEdge e.1.1 e.1.2 e.2) g := by
  induction l generalizing g with
  | nil => rfl
  | cons r l ih => rw [List.foldl_cons, ih, List.flatMap_cons, List.foldl_append, edgesOf, List.foldl_map]

theorem similarity_comm (rd : Rat → σ) (a b : Bitmap) : similarity rd a b = similarity rd b a := by
  rw [similarity, similarity, Finset.inter_comm, Finset.union_comm]

theorem graphJobs_spec (rd : Rat → σ) {db : DB} (hs : Settled db) : ∀ cs : List Int, cs.Nodup → (∀ c ∈ cs, hasCluster db c) →
    ∃ rs, graphJobs rd db cs = .ok rs ∧ (∀ e ∈ rs.flatMap edgesOf, e.1.1 ∈ cs ∧ e.1.2 ∈ cs) ∧
      (rs.flatMap edgesOf).Pairwise Apart ∧
      ∀ a b w, (((a, b), w) ∈ rs.flatMap edgesOf ∨ ((b, a), w) ∈ rs.flatMap edgesOf) ↔
        a ≠ b ∧ a ∈ cs ∧ b ∈ cs ∧ (docsOfCluster db a ∩ docsOfCluster db b).Nonempty ∧
          w = similarity rd (docsOfCluster db a) (docsOfCluster db b)
  | [], _, _ => ⟨[], rfl, by simp, by simp, by simp⟩
  | c :: cs, hn, hex => by
    obtain ⟨hc, hn'⟩ := List.nodup_cons.1 hn
    obtain ⟨rs, h1, h2, h3, h4⟩ := graphJobs_spec rd hs cs hn' (fun x hx => hex x (by simp [hx]))
    have hd := (docsOfCluster_spec hs (hex c (by simp))).1
    have hq := queryCooccurrence_spec rd hs (docsOfCluster db c) cs (fun x hx => hex x (by simp [hx]))
    set ws := (cs.filter (fun x => (docsOfCluster db c ∩ docsOfCluster db x).Nonempty)).map (weightOf rd db (docsOfCluster db c))
      with hws
    have hnew : ∀ e, e ∈ edgesOf (c, ws) ↔ e.1.1 = c ∧ e.1.2 ∈ cs ∧ (docsOfCluster db c ∩ docsOfCluster db e.1.2).Nonempty ∧
        e.2 = similarity rd (docsOfCluster db c) (docsOfCluster db e.1.2) := by
      rintro ⟨⟨a, b⟩, w⟩
      simp only [edgesOf, hws, List.map_map, List.mem_map, List.mem_filter, decide_eq_true_eq, Function.comp, weightOf,
        Prod.mk.injEq]
      constructor
      · rintro ⟨x, ⟨k1, k2⟩, ⟨rfl, rfl⟩, rfl⟩; exact ⟨rfl, k1, k2, rfl⟩
      · rintro ⟨rfl, k1, k2, rfl⟩; exact ⟨b, ⟨k1, k2⟩, ⟨rfl, rfl⟩, rfl⟩
    refine ⟨(c, ws) :: rs, ?_, ?_, ?_, ?_⟩
    · rw [graphJobs, hd]
      show (queryCooccurrence rd db (docsOfCluster db c) cs >>= fun ws => _) = _
      rw [hq]
      show (graphJobs rd db cs >>= fun rest => _) = _
      rw [h1]
      rfl
    · intro e he
      rw [List.flatMap_cons, List.mem_append] at he
      rcases he with he | he
      · obtain ⟨k1, k2, -⟩ := (hnew e).1 he
        exact ⟨by simp [k1], by simp [k2]⟩
      · exact ⟨by simp [(h2 e he).1], by simp [(h2 e he).2]⟩
    · rw [List.flatMap_cons, List.pairwise_append]
      refine ⟨?_, h3, ?_⟩
      · have hsnd : ((edgesOf (c, ws)).map (fun e => e.1.2)).Nodup := by
          have : (edgesOf (c, ws)).map (fun e => e.1.2) =
              cs.filter (fun x => (docsOfCluster db c ∩ docsOfCluster db x).Nonempty) := by
            simp [edgesOf, hws, weightOf, Function.comp_def]
          rw [this]; exact hn'.filter _
        have hp : (edgesOf (c, ws)).Pairwise (fun e f => e.1.2 ≠ f.1.2) := by
          rw [List.Nodup, List.pairwise_map] at hsnd; exact hsnd
        refine List.Pairwise.imp_of_mem ?_ hp
        intro e f he hf hne
        refine ⟨fun h => hne (by rw [h]), fun h => ?_⟩
        have k1 := ((hnew e).1 he)
        have k2 := ((hnew f).1 hf)
        have : e.1.2 = c := by rw [h]; exact k2.1
        exact hc (this ▸ k1.2.1)
      · intro e he f hf
        have k1 := ((hnew e).1 he)
        have k2 := h2 f hf
        refine ⟨fun h => ?_, fun h => ?_⟩
        · exact hc (by rw [← k1.1, h]; exact k2.1)
        · exact hc (by rw [← k1.1, h]; exact k2.2)
    · intro a b w
      simp only [List.flatMap_cons, List.mem_append]
      have := h4 a b w
      constructor
      · intro h
        have h' : (((a, b), w) ∈ edgesOf (c, ws) ∨ ((b, a), w) ∈ edgesOf (c, ws)) ∨
            (((a, b), w) ∈ rs.flatMap edgesOf ∨ ((b, a), w) ∈ rs.flatMap edgesOf) := by tauto
        rcases h' with (h | h) | h
        · obtain ⟨k1, k2, k3, k4⟩ := (hnew _).1 h
          simp only at k1 k2 k3 k4
          subst k1
          exact ⟨fun h => hc (h ▸ k2), by simp, by simp [k2], k3, k4⟩
        · obtain ⟨k1, k2, k3, k4⟩ := (hnew _).1 h
          simp only at k1 k2 k3 k4
          subst k1
          exact ⟨fun h => hc (h ▸ k2), by simp [k2], by simp, by rwa [Finset.inter_comm], by rw [k4, similarity_comm]⟩
        · obtain ⟨k1, k2, k3, k4⟩ := this.1 h
          exact ⟨k1, by simp [k2], by simp [k3], k4⟩
      · rintro ⟨k1, k2, k3, k4, k5⟩
        rcases List.mem_cons.1 k2 with hac | k6
        · subst hac
          rcases List.mem_cons.1 k3 with hbc | k7
          · exact absurd hbc.symm k1
          · exact Or.inl (Or.inl ((hnew _).2 ⟨rfl, k7, k4, k5⟩))
        · rcases List.mem_cons.1 k3 with hbc | k7
          · subst hbc
            exact Or.inr (Or.inl ((hnew _).2 ⟨rfl, k6, by rwa [Finset.inter_comm], by rw [k5, similarity_comm]⟩))
          · rcases this.2 ⟨k1, k6, k7, k4, k5⟩ with h | h
            · exact Or.inl (Or.inr h)
            · exact Or.inr (Or.inr h)

/-- The text a feature contributes to a label: its value, preceded by its field unless that is switched off. -/
def labelOf (includeField : Bool) (f : Listed) : String :=
  let v := match f.value with
    | .int i => toString i
    | .text s => s
  if includeField then f.field ++ ":" ++ v else v

theorem labelPart_eq (includeField : Bool) (f : Listed) (h : includeField = true ∨ ∃ s, f.value = .text s) :
    labelPart includeField f = .ok (labelOf includeField f) := by
  unfold labelPart labelOf
  cases includeField with
  | true =>
    cases hv : f.value with
    | int i => simp [toString]
    | text s => simp [toString]
  | false =>
    obtain ⟨s, hs⟩ := h.resolve_left (by simp)
    rw [hs]
    simp

/-- **C33.** For every model at rest, whatever the order in which rows are read and the comparisons complete: the graph has
one node per cluster, with its number of documents and a label naming its `top_k` most frequent features, and an undirected
edge between two distinct clusters exactly when they share a document, weighted by their similarity; no two edges connect the
same nodes.  Labels without field names need all values in the model to be text (otherwise see
`graph_labels_refused`). -/
theorem cluster_graph_spec (rd : Rat → σ) (visitC : List ClusterRow → List ClusterRow) (hvC : AnyOrder visitC)
    (visit : List Listed → List Listed) (hv : AnyOrder visit)
    (completed : List (Int × List (Int × σ × Nat)) → List (Int × List (Int × σ × Nat))) (hcomp : AnyOrder completed)
    (db : DB) (hs : Settled db) (topK : Nat) (includeField : Bool)
    (hlab : includeField = true ∨ ∀ f ∈ db.features, (assign db f.fid).isSome → ∃ s, f.value = .text s) :
    ∃ g, cooccurrenceGraph rd visitC visit completed db topK includeField = .ok g ∧
      (g.nodes.map (·.1)).Nodup ∧ (∀ c, c ∈ g.nodes.map (·.1) ↔ hasCluster db c) ∧
      (∀ n ∈ g.nodes, (∃ D : Bitmap, (∀ d, d ∈ D ↔ CoveredBy db n.1 d) ∧ n.2.1 = D.card) ∧
        ∃ L, IsListing (·.fid) (·.docsCount) db n.1 topK L ∧
          (∀ x ∈ L, ∃ r ∈ db.features, r.fid = x.fid ∧ r.field = x.field ∧ r.value = x.value) ∧
          n.2.2 = ", ".intercalate (L.map (labelOf includeField))) ∧
      g.edges.Pairwise Apart ∧
      ∀ a b w, (((a, b), w) ∈ g.edges ∨ ((b, a), w) ∈ g.edges) ↔
        a ≠ b ∧ hasCluster db a ∧ hasCluster db b ∧ (∃ d, CoveredBy db a d ∧ CoveredBy db b d) ∧
          ∃ A B : Bitmap, (∀ d, d ∈ A ↔ CoveredBy db a d) ∧ (∀ d, d ∈ B ↔ CoveredBy db b d) ∧ w = similarity rd A B := by
  obtain ⟨t1, t2, -, t4⟩ := top_cluster_features_listing visitC hvC visit hv db hs topK
  set clusters := topClusterFeatures visitC visit db topK with hcl
  have hlist : ∀ x ∈ clusters, ∀ f ∈ x.2.2, ∃ r ∈ db.features, r.fid = f.fid ∧ r.field = f.field ∧ r.value = f.value := by
    intro x hx
    rw [hcl, topClusterFeatures] at hx
    obtain ⟨k, -, rfl⟩ := List.mem_map.1 hx
    exact (cluster_features_listing visit hv db hs k.cid topK).2
  have hnodes : clusters.mapM (graphNode includeField) =
      .ok (clusters.map (fun c => (c.1, c.2.1, ", ".intercalate (c.2.2.map (labelOf includeField))))) := by
    apply mapM_ok_map
    intro c hc
    rw [graphNode, mapM_ok_map _ (labelOf includeField) c.2.2 (by
      intro f hf
      apply labelPart_eq
      rcases hlab with h | h
      · exact Or.inl h
      · obtain ⟨r, k1, k2, -, k4⟩ := hlist c hc f hf
        exact Or.inr (by rw [← k4]; exact h r k1 (by rw [k2, (t4 c hc).2.inCluster f hf]; rfl)))]
    rfl
  obtain ⟨rs, h1, h2, h3, h4⟩ := graphJobs_spec rd hs (clusters.map (·.1)) t1 (fun c hc => (t2 c).1 hc)
  have hperm : ((completed rs).flatMap edgesOf).Perm (rs.flatMap edgesOf) := (hcomp rs).flatMap_right _
  have hsymm : Std.Symm (Apart (σ := σ)) := ⟨by
    rintro e f ⟨k1, k2⟩
    refine ⟨fun h => k1 h.symm, fun h => k2 ?_⟩
    rw [h]; simp⟩
  have hap : ((completed rs).flatMap edgesOf).Pairwise Apart := (hperm.pairwise_iff (fun {a b} h => hsymm.symm a b h)).2 h3
  refine ⟨⟨clusters.map (fun c => (c.1, c.2.1, ", ".intercalate (c.2.2.map (labelOf includeField)))),
    (completed rs).flatMap edgesOf⟩, ?_, ?_, ?_, ?_, ?_, ?_⟩
  · rw [cooccurrenceGraph, ← hcl]
    show (clusters.mapM (graphNode includeField) >>= fun nodes => _) = _
    rw [hnodes]
    show (graphJobs rd db (clusters.map (·.1)) >>= fun results => _) = _
    rw [h1]
    show Except.ok _ = Except.ok _
    rw [foldl_results, foldl_addNode _ _ (by simpa [Function.comp_def] using t1), foldl_addEdge _ _ (by simpa using hap)]
    simp
  · simpa [Function.comp_def] using t1
  · intro c
    have := t2 c
    simpa [Function.comp_def] using this
  · intro n hn
    obtain ⟨c, hc, rfl⟩ := List.mem_map.1 hn
    obtain ⟨⟨D, -, k2, k3⟩, k4⟩ := t4 c hc
    exact ⟨⟨D, k3, k2⟩, c.2.2, k4, hlist c hc, rfl⟩
  · exact hap
  · intro a b w
    show (((a, b), w) ∈ (completed rs).flatMap edgesOf ∨ ((b, a), w) ∈ (completed rs).flatMap edgesOf) ↔ _
    rw [hperm.mem_iff, hperm.mem_iff, h4, t2, t2]
    constructor
    · rintro ⟨k1, k2, k3, k4, k5⟩
      obtain ⟨-, ha⟩ := docsOfCluster_spec hs k2
      obtain ⟨-, hb⟩ := docsOfCluster_spec hs k3
      obtain ⟨d, hd⟩ := k4
      rw [Finset.mem_inter, ha, hb] at hd
      exact ⟨k1, k2, k3, ⟨d, hd⟩, _, _, ha, hb, k5⟩
    · rintro ⟨k1, k2, k3, ⟨d, k4, k5⟩, A, B, k6, k7, k8⟩
      obtain ⟨-, ha⟩ := docsOfCluster_spec hs k2
      obtain ⟨-, hb⟩ := docsOfCluster_spec hs k3
      have eA : A = docsOfCluster db a := by ext x; rw [k6, ha]
      have eB : B = docsOfCluster db b := by ext x; rw [k7, hb]
      subst eA eB
      exact ⟨k1, k2, k3, ⟨d, Finset.mem_inter.2 ⟨(ha d).2 k4, (hb d).2 k5⟩⟩, k8⟩

set_option synthInstance.maxSize 1000 in
/-- Clusters 1 and 2 share documents 0 and 2, clusters 1 and 3 document 1. -/
example : ((cooccurrenceGraph (σ := Rat) id id id List.reverse queryDb 1 true).toOption.map (fun g => (g.nodes, g.edges))) =
    some ([(1, 3, "t:b"), (2, 2, "n:5"), (3, 1, "n:3")], [((1, 2), 2 / 3), ((1, 3), 1 / 3)]) := by decide +kernel

theorem mapM_only_error {α β : Type} (f : α → Except Err β) (e : Err) (l : List α) (hall : ∀ x ∈ l, ∀ e', f x = .error e' → e' = e)
    (x : α) (hx : x ∈ l) (he : f x = .error e) : l.mapM f = .error e := by
  induction l with
  | nil => cases hx
  | cons a l ih =>
    rw [List.mapM_cons]
    cases ha : f a with
    | error e' =>
      rw [hall a (by simp) e' ha]; rfl
    | ok v =>
      have hx' : x ∈ l := by
        rcases List.mem_cons.1 hx with rfl | h
        · rw [ha] at he; cases he
        · exact h
      show (l.mapM f >>= fun bs => _) = _
      rw [ih (fun y hy => hall y (by simp [hy])) hx']
      rfl

/-- **C33.** Labels without field names: when all features of a cluster are to be named and one of their values is not text, no
graph is made, `TypeError` is raised. -/
theorem graph_labels_refused (rd : Rat → σ) (visitC : List ClusterRow → List ClusterRow) (hvC : AnyOrder visitC)
    (visit : List Listed → List Listed) (hv : AnyOrder visit)
    (completed : List (Int × List (Int × σ × Nat)) → List (Int × List (Int × σ × Nat)))
    (db : DB) (hs : Settled db) (topK : Nat) (c : Int) (r : FeatRow) (hr : r ∈ db.features) (hc : assign db r.fid = some c)
    (i : Int) (hi : r.value = .int i) (hk : (featuresIn db c).length ≤ topK) :
    cooccurrenceGraph rd visitC visit completed db topK false = .error .typeError := by
  obtain ⟨-, t2, -, t4⟩ := top_cluster_features_listing visitC hvC visit hv db hs topK
  set clusters := topClusterFeatures visitC visit db topK with hcl
  have hlist : ∀ x ∈ clusters, ∀ f ∈ x.2.2, ∃ r ∈ db.features, r.fid = f.fid ∧ r.field = f.field ∧ r.value = f.value := by
    intro x hx
    rw [hcl, topClusterFeatures] at hx
    obtain ⟨k, -, rfl⟩ := List.mem_map.1 hx
    exact (cluster_features_listing visit hv db hs k.cid topK).2
  have hw := hs.toWellformed
  have hin : hasCluster db c := by
    obtain ⟨row, h1, -, h3⟩ := (assign_some_iff hw r.fid c).1 hc
    rw [← h3]; exact hw.knownCluster row h1
  obtain ⟨x, hx, rfl⟩ := List.mem_map.1 ((t2 c).2 hin)
  have hL := (t4 x hx).2
  have hmem : r.fid ∈ x.2.2.map (·.fid) := by
    have hsub : x.2.2.map (·.fid) ⊆ featuresIn db x.1 := by
      intro f hf
      obtain ⟨y, hy, rfl⟩ := List.mem_map.1 hf
      exact (mem_featuresIn hw _ _).2 (hL.inCluster y hy)
    have hperm : (x.2.2.map (·.fid)).Perm (featuresIn db x.1) :=
      (hL.once.subperm hsub).perm_of_length_le (by rw [List.length_map, hL.size]; omega)
    exact hperm.mem_iff.2 ((mem_featuresIn hw _ _).2 hc)
  obtain ⟨y, hy, e⟩ := List.mem_map.1 hmem
  obtain ⟨q, hq, e1, -, e3⟩ := hlist x hx y hy
  have hqr : q = r := List.inj_on_of_nodup_map hs.featureIds hq hr (e1.trans e)
  have hval : y.value = .int i := by rw [← e3, hqr, hi]
  have hpart : ∀ f e', labelPart false f = .error e' → e' = .typeError := by
    intro f e' h
    unfold labelPart at h
    cases hf : f.value <;> rw [hf] at h <;> cases h
    rfl
  have hnode : ∀ z e', graphNode false z = .error e' → e' = .typeError := by
    intro z e' h
    rw [graphNode] at h
    cases hz : z.2.2.mapM (labelPart false) with
    | ok v => rw [hz] at h; cases h
    | error e'' =>
      rw [hz] at h
      cases h
      by_contra hne
      have key : ∀ l : List Listed, ∀ e', l.mapM (labelPart false) = .error e' → e' = .typeError := by
        intro l
        induction l with
        | nil => intro e' h; cases h
        | cons a l ih =>
          intro e' h
          rw [List.mapM_cons] at h
          cases ha : labelPart false a with
          | error e2 => rw [ha] at h; cases h; exact hpart a _ ha
          | ok v =>
            rw [ha] at h
            change (l.mapM (labelPart false) >>= fun bs => _) = _ at h
            cases hl : l.mapM (labelPart false) with
            | error e2 => rw [hl] at h; cases h; exact ih _ hl
            | ok bs => rw [hl] at h; cases h
      exact hne (key _ _ hz)
  have : clusters.mapM (graphNode false) = .error .typeError := by
    refine mapM_only_error _ _ _ (fun z _ e' h => hnode z e' h) x hx ?_
    rw [graphNode, mapM_only_error (labelPart false) .typeError x.2.2 (fun f _ e' h => hpart f e' h) y hy (by
      unfold labelPart; rw [hval])]
    rfl
  rw [cooccurrenceGraph, ← hcl]
  show (clusters.mapM (graphNode false) >>= fun nodes => _) = _
  rw [this]
  rfl

/-- Labels without field names: a value that is not text raises `TypeError` instead. -/
theorem graph_label_fails : cooccurrenceGraph (σ := Rat) id id id id queryDb 1 false = .error .typeError := by
  have : (topClusterFeatures id id queryDb 1).mapM (graphNode false) = .error .typeError := by
    have h : (match (topClusterFeatures id id queryDb 1).mapM (graphNode false) with
      | .error .typeError => true
      | _ => false) = true := by decide +kernel
    split at h <;> simp_all
  rw [cooccurrenceGraph]
  show ((topClusterFeatures id id queryDb 1).mapM (graphNode false) >>= fun nodes => _) = _
  rw [this]
  rfl

end Hyperreal.Props
