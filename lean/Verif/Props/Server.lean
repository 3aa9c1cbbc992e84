import Verif.Spec.Server
import Verif.Props.Pivot
import Verif.Props.Query
import Verif.Props.Indexing

/-!
# C45, C46, C55, C56: the web views
-/

namespace Hyperreal.Props
open Atomic Spec

variable {σ : Type} [LinearOrder σ]

/-! ## Navigation -/

theorem clusterIds_perm (db : DB) : (clusterIds db).Perm (db.clusters.map (·.cid)) := List.perm_insertionSort _ _

theorem mem_clusterIds (db : DB) (c : Int) : c ∈ clusterIds db ↔ hasCluster db c := by
  rw [(clusterIds_perm db).mem_iff, List.mem_map]; rfl

theorem clusterIds_nodup {db : DB} (hs : Settled db) : (clusterIds db).Nodup :=
  (clusterIds_perm db).nodup_iff.2 hs.toWellformed.clusterIds

/-- The `i`-th cluster, counted around the ring. -/
def ringAt (ids : List Int) (i : Nat) : Int := ids.getD (i % ids.length) 0

/-- The neighbours of a cluster. -/
def ringNext (ids : List Int) (c : Int) : Int := ringAt ids (ids.idxOf c + 1)
def ringPrev (ids : List Int) (c : Int) : Int := ringAt ids (ids.idxOf c + (ids.length - 1))

theorem ringAt_lt {ids : List Int} {i : Nat} (h : i < ids.length) : ringAt ids i = ids[i] := by
  simp [ringAt, Nat.mod_eq_of_lt h, List.getD_eq_getElem?_getD, List.getElem?_eq_getElem h]

theorem ringAt_mem {ids : List Int} (h : ids ≠ []) (i : Nat) : ringAt ids i ∈ ids := by
  have hl : i % ids.length < ids.length := Nat.mod_lt _ (List.length_pos_iff.2 h)
  simp only [ringAt, List.getD_eq_getElem?_getD, List.getElem?_eq_getElem hl, Option.getD_some]
  exact List.getElem_mem hl

theorem idxOf_ringAt {ids : List Int} (hn : ids.Nodup) (h : ids ≠ []) (i : Nat) : ids.idxOf (ringAt ids i) = i % ids.length := by
  have hl : i % ids.length < ids.length := Nat.mod_lt _ (List.length_pos_iff.2 h)
  simp only [ringAt, List.getD_eq_getElem?_getD, List.getElem?_eq_getElem hl, Option.getD_some]
  exact hn.idxOf_getElem _ hl

theorem ringAt_idxOf {ids : List Int} {c : Int} (h : c ∈ ids) : ringAt ids (ids.idxOf c) = c := by
  rw [ringAt_lt (List.idxOf_lt_length_iff.2 h)]; exact List.getElem_idxOf _

theorem ringAt_mod (ids : List Int) (i : Nat) : ringAt ids (i % ids.length) = ringAt ids i := by
  simp [ringAt]

theorem ringAt_add_mod (ids : List Int) (i j : Nat) : ringAt ids (i % ids.length + j) = ringAt ids (i + j) := by
  simp [ringAt]

theorem nextCluster_eq {ids : List Int} {c : Int} (h : c ∈ ids) : nextCluster ids (ids.idxOf c) = .ok (ringNext ids c) := by
  have hi := List.idxOf_lt_length_iff.2 h
  unfold nextCluster ringNext
  by_cases hlt : ids.idxOf c + 1 < ids.length
  · rw [if_pos (by omega), List.getElem?_eq_getElem hlt, ringAt_lt hlt]
  · have : ids.idxOf c + 1 = ids.length := by omega
    rw [if_neg (by omega), this, ← ringAt_mod, Nat.mod_self, List.getElem?_eq_getElem (by omega), ringAt_lt (by omega)]

theorem prevCluster_eq {ids : List Int} {c : Int} (h : c ∈ ids) : prevCluster ids (ids.idxOf c) = .ok (ringPrev ids c) := by
  have hi := List.idxOf_lt_length_iff.2 h
  unfold prevCluster ringPrev
  by_cases h0 : ids.idxOf c = 0
  · rw [if_pos h0, h0, Nat.zero_add, List.getElem?_eq_getElem (by omega), ringAt_lt (by omega)]
  · have : ids.idxOf c + (ids.length - 1) = ids.idxOf c - 1 + ids.length := by omega
    rw [if_neg h0, this, ← ringAt_mod, Nat.add_mod_right, ringAt_mod, List.getElem?_eq_getElem (by omega), ringAt_lt (by omega)]

/-- The features that are shown: ranked by similarity when the query has documents, else listed. -/
def ShownFor (w : Web σ) (c : Int) (Q : Bitmap) (shown : Shown σ) : Prop :=
  (Q ≠ ∅ ∧ ∃ rs, shown = .ranked rs ∧ Ranked w.rd w.db Q (featuresIn w.db c).length c rs) ∨
  (Q = ∅ ∧ ∃ rs, shown = .plain rs ∧ IsListing (·.fid) (·.docsCount) w.db c (2 ^ 62) rs ∧
    ∀ x ∈ rs, ∃ r ∈ w.db.features, r.fid = x.fid ∧ r.field = x.field ∧ r.value = x.value)

theorem clusterPage_eq {w : Web σ} (hw : FairWeb w) (hs : Settled w.db) (hsize : ∀ c, (featuresIn w.db c).length ≤ 2 ^ 62)
    {c : Int} (hc : hasCluster w.db c) {g : Option Int} (hg : ∀ x, g = some x → hasCluster w.db x) (f : Option Nat) (n : Nat)
    (t : Option String) :
    ∃ Q shown, (∀ d, d ∈ Q ↔ OnPage w.db c f g d) ∧ ShownFor w c Q shown ∧
      clusterPage w c f g n t = (searchResults w (resultType t) Q
        (concordanceFeatures (clusterFeatures (w.visit c) w.db c) f (filterFeatures w g))
        (passageClauses (clusterFeatures (w.visit c) w.db c) f g (filterFeatures w g)) n).map (fun r =>
        ⟨c, ringPrev (clusterIds w.db) c, ringNext (clusterIds w.db) c, shown, r, resultType t, Q.card,
          w.db.clusters.any (fun k => k.cid = c && k.pinned), w.db.fieldSummary.map (·.field)⟩) := by
  have hm := (mem_clusterIds w.db c).2 hc
  obtain ⟨D, hD, hDm⟩ := clusterDocs_spec hs c hc
  obtain ⟨Q, hQ, hQm⟩ : ∃ Q, restrictCluster w.db (restrictFeature w.db D f) g = .ok Q ∧ ∀ d, d ∈ Q ↔ OnPage w.db c f g d := by
    have h1 : ∀ d, d ∈ restrictFeature w.db D f ↔ CoveredBy w.db c d ∧ ∀ x, f = some x → d ∈ w.db.docsOf x := by
      intro d
      cases f with
      | none => simp [restrictFeature, hDm]
      | some x => simp [restrictFeature, hDm]
    cases g with
    | none => exact ⟨_, rfl, fun d => by rw [h1, OnPage]; simp⟩
    | some x =>
      obtain ⟨E, hE, hEm⟩ := clusterDocs_spec hs x (hg x rfl)
      refine ⟨restrictFeature w.db D f ∩ E, by simp [restrictCluster, hE, bind, Except.bind, pure, Except.pure], fun d => ?_⟩
      rw [Finset.mem_inter, h1, hEm, OnPage]
      simp [and_assoc]
  have hlen : (clusterFeatures (w.visit c) w.db c).length = (featuresIn w.db c).length := by
    have := clusterFeatures_perm (hw.visit c) w.db c (2 ^ 62) (by
      rw [← List.length_map (f := (·.fid)), clusterRows_fids hs.toWellformed]; exact hsize c)
    rw [this.length_eq, ← List.length_map (f := (·.fid)), clusterRows_fids hs.toWellformed]
  have hne : 1 ≤ (featuresIn w.db c).length := by
    obtain ⟨k, hk, rfl⟩ := hc
    obtain ⟨r, hr, hrc⟩ := (hs.summaries k hk).nonempty
    exact List.length_pos_of_mem (List.mem_map.2 ⟨r, List.mem_filter.2 ⟨hr, by simpa using hrc⟩, rfl⟩)
  obtain ⟨out, ho1, ho2, ho3, -, ho5⟩ := pivot_clusters_spec w.rd hw.mono hw.pos w.visitC hw.visitC w.visit hw.visit w.arrange
    hw.arrange w.workers hw.workers w.completed hw.completed w.db hs hsize Q [c] (by simp) (by simpa using hc)
    (featuresIn w.db c).length hne
  refine ⟨Q, shownFeatures out (clusterFeatures (w.visit c) w.db c), hQm, ?_, ?_⟩
  · have htouch : ∀ c', c' ∈ out.map (·.1) → c' = c := by
      intro c' h
      have := ((ho3 c').1 h).1
      simpa [Requested] using this
    by_cases hQe : Q = ∅
    · right
      refine ⟨hQe, clusterFeatures (w.visit c) w.db c, ?_, ?_⟩
      · cases out with
        | nil => rfl
        | cons x l =>
          obtain ⟨-, d, hd, -⟩ := (ho3 x.1).1 (by simp)
          rw [hQe] at hd; simp at hd
      · exact cluster_features_listing (w.visit c) (hw.visit c) w.db hs c _
    · left
      refine ⟨hQe, ?_⟩
      cases out with
      | nil =>
        obtain ⟨d, hd⟩ := Finset.nonempty_iff_ne_empty.2 hQe
        have := (ho3 c).2 ⟨by simp [Requested], d, hd, ((hQm d).1 hd).1⟩
        simp at this
      | cons x l =>
        have hx : x.1 = c := htouch x.1 (by simp)
        exact ⟨x.2.2, rfl, hx ▸ (ho5 x (by simp)).2⟩
  · unfold clusterPage
    simp only [hm, not_true_eq_false, if_false, prevCluster_eq hm, nextCluster_eq hm, hD, hQ, hlen, ho1, bind, Except.bind, pure, Except.pure]
    cases searchResults w (resultType t) Q _ _ n <;> rfl

theorem map_ok {α β : Type} {x : Except Err α} {f : α → β} {y : β} (h : x.map f = .ok y) : ∃ a, x = .ok a ∧ y = f a := by
  cases x with
  | error e => cases h
  | ok a => exact ⟨a, rfl, by cases h; rfl⟩

/-- The request's clusters exist, when the page could be shown. -/
theorem clusterPage_ok {w : Web σ} {c : Int} {f : Option Nat} {g : Option Int} {n : Nat} {t : Option String} {p : ClusterPage σ}
    (h : clusterPage w c f g n t = .ok p) : hasCluster w.db c ∧ ∀ x, g = some x → hasCluster w.db x := by
  unfold clusterPage at h
  by_cases hc : c ∈ clusterIds w.db
  · refine ⟨(mem_clusterIds _ _).1 hc, ?_⟩
    rintro x rfl
    by_contra hx
    simp only [hc, not_true_eq_false, if_false, prevCluster_eq hc, nextCluster_eq hc, bind, Except.bind, pure, Except.pure,
      restrictCluster, clusterDocs_unknown x hx] at h
    cases hd : clusterDocs w.db c with
    | error e => simp [hd] at h
    | ok D => simp [hd] at h
  · simp only [hc, not_false_eq_true, if_true] at h
    cases h

/-- **C45.** The previous and next links form a ring: they depend on the cluster only, lead to clusters, are inverse to each
other, and from every cluster every other one is reached by following `next`, within as many steps as there are clusters. -/
theorem cluster_ring (w : Web σ) (hw : FairWeb w) (hs : Settled w.db) (hsize : ∀ c, (featuresIn w.db c).length ≤ 2 ^ 62) :
    ∃ next prev : Int → Int,
      (∀ c f g n t p, clusterPage w c f g n t = .ok p → p.next = next c ∧ p.prev = prev c) ∧
      (∀ c, hasCluster w.db c → hasCluster w.db (next c) ∧ hasCluster w.db (prev c) ∧ prev (next c) = c ∧ next (prev c) = c) ∧
      ∀ c c', hasCluster w.db c → hasCluster w.db c' → ∃ k < w.db.clusters.length, next^[k] c = c' := by
  set ids := clusterIds w.db with hids
  have hn : ids.Nodup := clusterIds_nodup hs
  refine ⟨ringNext ids, ringPrev ids, ?_, ?_, ?_⟩
  · intro c f g n t p h
    obtain ⟨h1, h2⟩ := clusterPage_ok h
    obtain ⟨Q, shown, -, -, he⟩ := clusterPage_eq hw hs hsize h1 h2 f n t
    rw [he] at h
    obtain ⟨r, -, rfl⟩ := map_ok h
    exact ⟨rfl, rfl⟩
  · intro c hc
    have hm := (mem_clusterIds w.db c).2 hc
    have hne : ids ≠ [] := List.ne_nil_of_mem hm
    have hpos : 0 < ids.length := List.length_pos_iff.2 hne
    refine ⟨(mem_clusterIds _ _).1 (ringAt_mem hne _), (mem_clusterIds _ _).1 (ringAt_mem hne _), ?_, ?_⟩
    · unfold ringPrev
      rw [show ringNext ids c = ringAt ids (ids.idxOf c + 1) from rfl, idxOf_ringAt hn hne, ringAt_add_mod,
        show ids.idxOf c + 1 + (ids.length - 1) = ids.idxOf c + ids.length by omega, ← ringAt_mod, Nat.add_mod_right, ringAt_mod,
        ringAt_idxOf hm]
    · unfold ringNext
      rw [show ringPrev ids c = ringAt ids (ids.idxOf c + (ids.length - 1)) from rfl, idxOf_ringAt hn hne, ringAt_add_mod,
        show ids.idxOf c + (ids.length - 1) + 1 = ids.idxOf c + ids.length by omega, ← ringAt_mod, Nat.add_mod_right, ringAt_mod,
        ringAt_idxOf hm]
  · intro c c' hc hc'
    have hm := (mem_clusterIds w.db c).2 hc
    have hm' := (mem_clusterIds w.db c').2 hc'
    have hne : ids ≠ [] := List.ne_nil_of_mem hm
    have hi : ids.idxOf c < ids.length := List.idxOf_lt_length_iff.2 hm
    have hi' : ids.idxOf c' < ids.length := List.idxOf_lt_length_iff.2 hm'
    have hlen : ids.length = w.db.clusters.length := by rw [(clusterIds_perm w.db).length_eq, List.length_map]
    have hit : ∀ k, (ringNext ids)^[k] c = ringAt ids (ids.idxOf c + k) := by
      intro k
      induction k with
      | zero => exact (ringAt_idxOf hm).symm
      | succ k ih =>
        rw [Function.iterate_succ_apply', ih, ringNext, idxOf_ringAt hn hne, ringAt_add_mod]
        rfl
    refine ⟨(ids.idxOf c' + (ids.length - ids.idxOf c)) % ids.length, ?_, ?_⟩
    · rw [← hlen]; exact Nat.mod_lt _ (List.length_pos_iff.2 hne)
    · rw [hit, Nat.add_comm, ringAt_add_mod, show ids.idxOf c' + (ids.length - ids.idxOf c) + ids.idxOf c = ids.idxOf c' + ids.length by omega,
        ← ringAt_mod, Nat.add_mod_right, ringAt_mod, ringAt_idxOf hm']

/-- **C45, C55.** A page is refused with 404 exactly for clusters that do not exist. -/
theorem cluster_page_unknown (w : Web σ) (c : Int) (hc : ¬ hasCluster w.db c) (f : Option Nat) (g : Option Int) (n : Nat)
    (t : Option String) : clusterPage w c f g n t = .error (.http 404) := by
  unfold clusterPage
  rw [← mem_clusterIds] at hc
  simp only [hc, not_false_eq_true, if_true]
  rfl

/-- **C55.** What a cluster page shows: the documents counted are those of the cluster that have the feature and are in the
filter cluster; the features are ranked by their similarity to these documents (all of the cluster's features sharing a
document with them), or listed by frequency when there are none.  Without a corpus every page of existing clusters can be
shown. -/
theorem cluster_page_spec (w : Web σ) (hw : FairWeb w) (hs : Settled w.db) (hsize : ∀ c, (featuresIn w.db c).length ≤ 2 ^ 62)
    (c : Int) (f : Option Nat) (g : Option Int) (n : Nat) (t : Option String) :
    (∀ p, clusterPage w c f g n t = .ok p → p.cluster = c ∧
      ∃ Q : Bitmap, (∀ d, d ∈ Q ↔ OnPage w.db c f g d) ∧ p.total = Q.card ∧ ShownFor w c Q p.features ∧
        (p.pinned = true ↔ ∃ k ∈ w.db.clusters, k.cid = c ∧ k.pinned = true)) ∧
    (w.corpus = none → hasCluster w.db c → (∀ x, g = some x → hasCluster w.db x) →
      ∃ p, clusterPage w c f g n t = .ok p) := by
  constructor
  · intro p h
    obtain ⟨h1, h2⟩ := clusterPage_ok h
    obtain ⟨Q, shown, hQ, hsh, he⟩ := clusterPage_eq hw hs hsize h1 h2 f n t
    rw [he] at h
    obtain ⟨r, -, rfl⟩ := map_ok h
    refine ⟨rfl, Q, hQ, rfl, hsh, ?_⟩
    simp
  · intro hno hc hg
    obtain ⟨Q, shown, -, -, he⟩ := clusterPage_eq hw hs hsize hc hg f n t
    rw [he]
    unfold searchResults
    rw [hno]
    exact ⟨_, rfl⟩

/-! ## Result types -/

/-- The kind of results. -/
def Results.kind : Results → String
  | .nothing => "nothing"
  | .concordance _ => "concordance"
  | .passages _ => "passage"
  | .documents _ => "document"

theorem bind_ok' {α β : Type} {x : Except Err α} {f : α → Except Err β} {y : β} (h : (x >>= f) = .ok y) :
    ∃ a, x = .ok a ∧ f a = .ok y := by
  cases x with
  | error e => cases h
  | ok a => exact ⟨a, rfl, h⟩

theorem searchResults_kind {w : Web σ} {type : String} {Q : Bitmap} {F : List FeatureRef} {C : List (List FeatureRef)} {n : Nat}
    {r : Results} (h : searchResults w type Q F C n = .ok r) :
    Results.kind r = (if w.corpus.isNone then "nothing" else if type = "passage" then "passage" else "document") := by
  unfold searchResults at h
  cases hc : w.corpus with
  | none => rw [hc] at h; cases h; rfl
  | some x =>
    obtain ⟨corpus, render⟩ := x
    rw [hc] at h
    dsimp only at h
    have h' : (if type = "passage" then viewPassages w corpus C n else viewDocuments w render Q n) = .ok r := by
      by_cases ht : type = "concordance"
      · rw [if_pos ht] at h
        obtain ⟨_, _, h⟩ := bind_ok' h
        exact h
      · rw [if_neg ht] at h
        exact h
    by_cases ht : type = "passage"
    · rw [if_pos ht] at h'
      unfold viewPassages at h'
      obtain ⟨_, _, h'⟩ := bind_ok' h'
      obtain ⟨_, _, h'⟩ := bind_ok' h'
      cases h'
      simp [Results.kind, ht]
    · rw [if_neg ht] at h'
      unfold viewDocuments at h'
      cases render with
      | none => cases h'
      | some rr =>
        obtain ⟨_, _, h'⟩ := bind_ok' h'
        cases h'
        simp [Results.kind, ht]

/-- **C46, refuted in part.** With a corpus, the cluster view holds passages when they were asked for, and rendered documents
otherwise — also when concordances were asked for (`concordance_not_shown`). -/
theorem cluster_result_type_partial (w : Web σ) (hw : FairWeb w) (hs : Settled w.db)
    (hsize : ∀ c, (featuresIn w.db c).length ≤ 2 ^ 62) (c : Int) (f : Option Nat) (g : Option Int) (n : Nat) (t : Option String)
    (p : ClusterPage σ) (h : clusterPage w c f g n t = .ok p) (hc : w.corpus ≠ none) :
    (t = some "passage" → Results.kind p.results = "passage") ∧ (t ≠ some "passage" → Results.kind p.results = "document") ∧
      p.type = (if t = none ∨ t = some "" then "document" else t.getD "") := by
  obtain ⟨h1, h2⟩ := clusterPage_ok h
  obtain ⟨Q, shown, -, -, he⟩ := clusterPage_eq hw hs hsize h1 h2 f n t
  rw [he] at h
  obtain ⟨r, hr, rfl⟩ := map_ok h
  have hk := searchResults_kind hr
  have hcn : w.corpus.isNone = false := by cases hcc : w.corpus with | none => exact absurd hcc hc | some x => rfl
  rw [hcn] at hk
  simp only [Bool.false_eq_true, if_false] at hk
  dsimp only
  cases t with
  | none => simp [resultType] at hk ⊢; exact hk
  | some t =>
    by_cases ht : t = ""
    · subst ht; simp [resultType] at hk ⊢; exact hk
    · simp only [resultType, ht, if_false] at hk ⊢
      simp only [Option.some.injEq, ne_eq, reduceCtorEq, ht, or_self, if_false, Option.getD_some, and_true]
      exact ⟨fun h => by rw [hk, if_pos h], fun h => by rw [hk, if_neg h]⟩

/-- The same for the view of the index: nothing without a query that has documents. -/
theorem index_result_type_partial (w : Web σ) (f : Option Nat) (c : Option Int) (n k : Nat) (t : Option String)
    (p : IndexPage σ) (h : indexPage w f c n k t = .ok (some p)) (hc : w.corpus ≠ none) :
    Results.kind p.results = (if p.total = 0 then "nothing" else if t = some "passage" then "passage" else "document") := by
  have hcn : w.corpus.isNone = false := by cases hcc : w.corpus with | none => exact absurd hcc hc | some x => rfl
  unfold indexPage at h
  by_cases h0 : clusterIds w.db = []
  · rw [if_pos h0] at h; cases h
  · rw [if_neg h0] at h
    obtain ⟨q, hq, h⟩ := bind_ok' h
    cases q with
    | none =>
      cases h; rfl
    | some x =>
      obtain ⟨D, F, C⟩ := x
      dsimp only at h
      by_cases hD : D = ∅
      · rw [if_pos hD] at h; cases h; rfl
      · rw [if_neg hD] at h
        obtain ⟨sorted, -, h⟩ := bind_ok' h
        obtain ⟨r, hr, h⟩ := bind_ok' h
        cases h
        have hk := searchResults_kind hr
        rw [hcn] at hk
        simp only [Bool.false_eq_true, if_false] at hk
        have hpass : resultType t = "passage" ↔ t = some "passage" := by
          cases t with
          | none => simp [resultType]
          | some t =>
            by_cases ht : t = ""
            · subst ht; simp [resultType]
            · simp [resultType, ht]
        have hcard : ¬ Finset.card D = 0 := by simpa using hD
        show Results.kind r = if Finset.card D = 0 then _ else _
        rw [if_neg hcard, hk]
        simp only [hpass]

/-- **C46, refutation.** Asking for concordances never shows concordances. -/
theorem concordance_not_shown (w : Web σ) (hw : FairWeb w) (hs : Settled w.db)
    (hsize : ∀ c, (featuresIn w.db c).length ≤ 2 ^ 62) (c : Int) (f : Option Nat) (g : Option Int) (n : Nat)
    (p : ClusterPage σ) (h : clusterPage w c f g n (some "concordance") = .ok p) :
    Results.kind p.results ≠ "concordance" ∧ p.type = "concordance" := by
  obtain ⟨h1, h2⟩ := clusterPage_ok h
  obtain ⟨Q, shown, -, -, he⟩ := clusterPage_eq hw hs hsize h1 h2 f n (some "concordance")
  rw [he] at h
  obtain ⟨r, hr, rfl⟩ := map_ok h
  refine ⟨?_, by simp [resultType]⟩
  rw [searchResults_kind hr]
  cases w.corpus <;> simp [resultType]

/-! ## The index page -/

/-- **C55, index page.** Without a model the request is redirected to the details page.  Otherwise, without a query that has
documents, all clusters are listed with their most frequent features; with one (the documents of a feature, or of a cluster if
no feature is given), the clusters sharing documents with it are listed, the most similar first, each with its best
features.  `topK ≥ 1` features are asked for. -/
theorem index_page_spec (w : Web σ) (hw : FairWeb w) (hs : Settled w.db) (hsize : ∀ c, (featuresIn w.db c).length ≤ 2 ^ 62)
    (f : Option Nat) (c : Option Int) (n topK : Nat) (hk : 1 ≤ topK) (t : Option String) (r : Option (IndexPage σ))
    (h : indexPage w f c n topK t = .ok r) :
    (r = none ↔ w.db.clusters = []) ∧
    ∀ p, r = some p → ∃ Q : Bitmap,
      (∀ d, d ∈ Q ↔ (∃ x, f = some x ∧ d ∈ w.db.docsOf x) ∨ (f = none ∧ ∃ x, c = some x ∧ CoveredBy w.db x d)) ∧
      p.total = Q.card ∧
      (Q = ∅ → ∃ L, p.clusters = .plain L ∧ (L.map (·.1)).Perm (w.db.clusters.map (·.cid)) ∧
        L.Pairwise (fun a b => b.2.1 ≤ a.2.1) ∧
        ∀ x ∈ L, (∃ D : Bitmap, (∀ d, d ∈ D ↔ CoveredBy w.db x.1 d) ∧ x.2.1 = D.card) ∧
          IsListing (·.fid) (·.docsCount) w.db x.1 topK x.2.2 ∧
          ∀ y ∈ x.2.2, ∃ r ∈ w.db.features, r.fid = y.fid ∧ r.field = y.field ∧ r.value = y.value) ∧
      (Q ≠ ∅ → ∃ L, p.clusters = .ranked L ∧ (L.map (·.1)).Nodup ∧
        (∀ x, x ∈ L.map (·.1) ↔ hasCluster w.db x ∧ Touches w.db Q x) ∧ (L.map (·.2.1)).Pairwise (· ≥ ·) ∧
        ∀ x ∈ L, (∃ D : Bitmap, (∀ d, d ∈ D ↔ CoveredBy w.db x.1 d) ∧ x.2.1 = similarity w.rd Q D) ∧
          Ranked w.rd w.db Q topK x.1 x.2.2) := by
  have hnil : clusterIds w.db = [] ↔ w.db.clusters = [] := by
    constructor
    · intro h0
      have := (clusterIds_perm w.db).symm
      rw [h0] at this
      simpa using this.eq_nil
    · intro h0; simp [clusterIds, h0]
  unfold indexPage at h
  by_cases h0 : clusterIds w.db = []
  · rw [if_pos h0] at h
    cases h
    exact ⟨by simp [hnil.1 h0], by simp⟩
  · rw [if_neg h0] at h
    have hplain : ∃ L, Listing.plain (σ := σ) (topClusterFeatures w.visitC w.visitT w.db topK) = .plain L ∧
        (L.map (·.1)).Perm (w.db.clusters.map (·.cid)) ∧ L.Pairwise (fun a b => b.2.1 ≤ a.2.1) ∧
        ∀ x ∈ L, (∃ D : Bitmap, (∀ d, d ∈ D ↔ CoveredBy w.db x.1 d) ∧ x.2.1 = D.card) ∧
          IsListing (·.fid) (·.docsCount) w.db x.1 topK x.2.2 ∧
          ∀ y ∈ x.2.2, ∃ r ∈ w.db.features, r.fid = y.fid ∧ r.field = y.field ∧ r.value = y.value := by
      obtain ⟨-, -, t3, t4⟩ := top_cluster_features_listing w.visitC hw.visitC w.visitT hw.visitT w.db hs topK
      refine ⟨_, rfl, ?_, t3, ?_⟩
      · simp only [topClusterFeatures, List.map_map]
        exact ((orderDesc_perm _ _).trans (hw.visitC _)).map _
      · intro x hx
        obtain ⟨⟨D, -, d2, d3⟩, t5⟩ := t4 x hx
        obtain ⟨k, -, rfl⟩ := List.mem_map.1 hx
        exact ⟨⟨D, d3, d2⟩, t5, (cluster_features_listing w.visitT hw.visitT w.db hs k.cid topK).2⟩
    obtain ⟨q, hq, h⟩ := bind_ok' h
    have hqs : ∃ Q : Bitmap, (∀ d, d ∈ Q ↔ (∃ x, f = some x ∧ d ∈ w.db.docsOf x) ∨
        (f = none ∧ ∃ x, c = some x ∧ CoveredBy w.db x d)) ∧ ((q = none ∧ Q = ∅) ∨ ∃ F C, q = some (Q, F, C)) := by
      cases f with
      | some x => cases hq; exact ⟨w.db.docsOf x, by simp, .inr ⟨_, _, rfl⟩⟩
      | none =>
        cases c with
        | none => cases hq; exact ⟨∅, by simp, .inl ⟨rfl, rfl⟩⟩
        | some x =>
          unfold indexQuery at hq
          obtain ⟨D, hD, hq⟩ := bind_ok' hq
          cases hq
          have hx : hasCluster w.db x := by
            by_contra hx
            rw [clusterDocs_unknown x hx] at hD; cases hD
          obtain ⟨D', hD', hDm⟩ := clusterDocs_spec hs x hx
          rw [hD] at hD'
          cases hD'
          exact ⟨D, by simp [hDm], .inr ⟨_, _, rfl⟩⟩
    obtain ⟨Q, hQ, hcase⟩ := hqs
    have hnop : ∀ p : IndexPage σ, (some p = none ↔ w.db.clusters = []) := by
      intro p; simp [hnil.not.1 h0]
    rcases hcase with ⟨rfl, rfl⟩ | ⟨F, C, rfl⟩
    · cases h
      refine ⟨hnop _, ?_⟩
      rintro p hp
      cases hp
      exact ⟨∅, hQ, by simp, fun _ => hplain, by simp⟩
    · dsimp only at h
      by_cases hQe : Q = ∅
      · rw [if_pos hQe] at h
        cases h
        refine ⟨hnop _, ?_⟩
        rintro p hp
        cases hp
        exact ⟨Q, hQ, by simp [hQe], fun _ => hplain, fun h => absurd hQe h⟩
      · rw [if_neg hQe] at h
        obtain ⟨sorted, hsorted, h⟩ := bind_ok' h
        obtain ⟨rr, -, h⟩ := bind_ok' h
        cases h
        refine ⟨hnop _, ?_⟩
        rintro p hp
        cases hp
        refine ⟨Q, hQ, rfl, fun h => absurd h hQe, fun _ => ?_⟩
        obtain ⟨out, ho1, ho2, ho3, ho4, ho5⟩ := pivot_clusters_spec w.rd hw.mono hw.pos w.visitC hw.visitC w.visit hw.visit
          w.arrange hw.arrange w.workers hw.workers w.completed hw.completed w.db hs hsize Q [] (by simp) (by simp) topK hk
        rw [hsorted] at ho1
        cases ho1
        exact ⟨sorted, rfl, ho2, fun x => by rw [ho3]; simp [Requested], ho4, ho5⟩

/-! ## What the views show -/

theorem clusterFeatures_fids {w : Web σ} (hw : FairWeb w) (hs : Settled w.db) (hsize : ∀ c, (featuresIn w.db c).length ≤ 2 ^ 62) (c : Int) :
    ((clusterFeatures (w.visit c) w.db c).map (·.fid)).Perm (featuresIn w.db c) := by
  have := clusterFeatures_perm (hw.visit c) w.db c (2 ^ 62) (by
    rw [← List.length_map (f := (·.fid)), clusterRows_fids hs.toWellformed]; exact hsize c)
  have h2 := this.map (·.fid)
  rwa [clusterRows_fids hs.toWellformed] at h2

theorem searchResults_shows {w : Web σ} {corpus : Corpus} {render : Option (List Val → Except Err (List (Val × String)))}
    (hcorpus : w.corpus = some (corpus, render)) {type : String} {Q : Bitmap} {F : List FeatureRef} {C : List (List FeatureRef)} {n : Nat}
    {r : Results} (h : searchResults w type Q F C n = .ok r) :
    (type = "passage" → ∃ scored rs, scorePassages w.arrangeP w.orderP w.db C 25 = .ok scored ∧
      renderPassages w.keep w.orderB corpus w.db scored (sample := some n) = .ok rs ∧ r = .passages rs) ∧
    (type ≠ "passage" → ∃ rd rs, render = some rd ∧ renderDocsHtml w.pick rd w.db Q (some (n : Int)) = .ok rs ∧ r = .documents rs) := by
  unfold searchResults at h
  rw [hcorpus] at h
  dsimp only at h
  have h' : (if type = "passage" then viewPassages w corpus C n else viewDocuments w render Q n) = .ok r := by
    by_cases ht : type = "concordance"
    · rw [if_pos ht] at h
      obtain ⟨_, _, h⟩ := bind_ok' h
      exact h
    · rw [if_neg ht] at h
      exact h
  constructor
  · intro ht
    rw [if_pos ht] at h'
    unfold viewPassages at h'
    obtain ⟨scored, h1, h'⟩ := bind_ok' h'
    obtain ⟨rs, h2, h'⟩ := bind_ok' h'
    cases h'
    exact ⟨scored, rs, h1, h2, rfl⟩
  · intro ht
    rw [if_neg ht] at h'
    unfold viewDocuments at h'
    cases render with
    | none => cases h'
    | some rr =>
      obtain ⟨rs, h1, h'⟩ := bind_ok' h'
      cases h'
      exact ⟨rr, rs, rfl, h1, rfl⟩

theorem resultType_passage (t : Option String) : resultType t = "passage" ↔ t = some "passage" := by
  cases t with
  | none => simp [resultType]
  | some t =>
    by_cases ht : t = ""
    · subst ht; simp [resultType]
    · simp [resultType, ht]

/-- **C55, results on the cluster page.** When passages are asked for, the page shows what `render_passages_table` makes of
`score_passages_dnf(query, 25)`, where the query has one clause of the features of the cluster, one of the chosen feature if there is one,
and one of the features of the filter cluster if there is one.  Otherwise it shows what `render_docs_html` makes of the documents the
page is about.  (What these return: C37, C38, C40 and C56.) -/
theorem cluster_page_results (w : Web σ) (hw : FairWeb w) (hs : Settled w.db) (hsize : ∀ c, (featuresIn w.db c).length ≤ 2 ^ 62)
    (corpus : Corpus) (render : Option (List Val → Except Err (List (Val × String)))) (hcorpus : w.corpus = some (corpus, render))
    (c : Int) (f : Option Nat) (g : Option Int) (n : Nat) (t : Option String) (p : ClusterPage σ) (h : clusterPage w c f g n t = .ok p) :
    (t = some "passage" → ∃ (ofCluster : List Nat) (ofFilter : Int → List Nat) (scored : _) (rs : _),
      ofCluster.Perm (featuresIn w.db c) ∧ (∀ x, g = some x → (ofFilter x).Perm (featuresIn w.db x)) ∧
      scorePassages w.arrangeP w.orderP w.db ([ofCluster.map FeatureRef.id] ++ f.toList.map (fun f => [.id f]) ++
        g.toList.map (fun x => (ofFilter x).map FeatureRef.id)) 25 = .ok scored ∧
      renderPassages w.keep w.orderB corpus w.db scored (sample := some n) = .ok rs ∧ p.results = .passages rs) ∧
    (t ≠ some "passage" → ∃ rd rs Q, render = some rd ∧ (∀ d, d ∈ Q ↔ OnPage w.db c f g d) ∧
      renderDocsHtml w.pick rd w.db Q (some (n : Int)) = .ok rs ∧ p.results = .documents rs) := by
  obtain ⟨h1, h2⟩ := clusterPage_ok h
  obtain ⟨Q, shown, hQ, -, he⟩ := clusterPage_eq hw hs hsize h1 h2 f n t
  rw [he] at h
  obtain ⟨r, hr, rfl⟩ := map_ok h
  obtain ⟨s1, s2⟩ := searchResults_shows hcorpus hr
  rw [resultType_passage] at s1
  rw [ne_eq, resultType_passage] at s2
  refine ⟨fun ht => ?_, fun ht => ?_⟩
  · obtain ⟨scored, rs, e1, e2, e3⟩ := s1 ht
    refine ⟨(clusterFeatures (w.visit c) w.db c).map (·.fid), fun x => (clusterFeatures (w.visit x) w.db x).map (·.fid), scored, rs,
      clusterFeatures_fids hw hs hsize c, fun x _ => clusterFeatures_fids hw hs hsize x, ?_, e2, e3⟩
    rw [← e1]
    congr 1
    unfold passageClauses
    cases g <;> simp [filterFeatures, Function.comp_def]
  · obtain ⟨rd, rs, e1, e2, e3⟩ := s2 ht
    exact ⟨rd, rs, Q, e1, hQ, e2, e3⟩

/-- **C55, results on the index page.** With a query that has documents (those of a feature, or of a cluster if no feature is given): as on the
cluster page, with the one clause of that feature or of the features of that cluster. -/
theorem index_page_results (w : Web σ) (hw : FairWeb w) (hs : Settled w.db) (hsize : ∀ c, (featuresIn w.db c).length ≤ 2 ^ 62)
    (corpus : Corpus) (render : Option (List Val → Except Err (List (Val × String)))) (hcorpus : w.corpus = some (corpus, render))
    (f : Option Nat) (c : Option Int) (n topK : Nat) (t : Option String) (p : IndexPage σ)
    (h : indexPage w f c n topK t = .ok (some p)) (hdocs : p.total ≠ 0) :
    (t = some "passage" → ∃ (clause : List Nat) (scored : _) (rs : _),
      (∀ x, f = some x → clause = [x]) ∧ (∀ x, f = none → c = some x → clause.Perm (featuresIn w.db x)) ∧
      scorePassages w.arrangeP w.orderP w.db [clause.map FeatureRef.id] 25 = .ok scored ∧
      renderPassages w.keep w.orderB corpus w.db scored (sample := some n) = .ok rs ∧ p.results = .passages rs) ∧
    (t ≠ some "passage" → ∃ rd rs Q, render = some rd ∧
      (∀ d, d ∈ Q ↔ (∃ x, f = some x ∧ d ∈ w.db.docsOf x) ∨ (f = none ∧ ∃ x, c = some x ∧ CoveredBy w.db x d)) ∧
      renderDocsHtml w.pick rd w.db Q (some (n : Int)) = .ok rs ∧ p.results = .documents rs) := by
  unfold indexPage at h
  by_cases h0 : clusterIds w.db = []
  · rw [if_pos h0] at h; cases h
  rw [if_neg h0] at h
  obtain ⟨q, hq, h⟩ := bind_ok' h
  cases q with
  | none => cases h; exact absurd rfl hdocs
  | some x =>
    obtain ⟨D, F, C⟩ := x
    dsimp only at h
    by_cases hD : D = ∅
    · rw [if_pos hD] at h; cases h; exact absurd rfl hdocs
    rw [if_neg hD] at h
    obtain ⟨sorted, -, h⟩ := bind_ok' h
    obtain ⟨r, hr, h⟩ := bind_ok' h
    cases h
    obtain ⟨s1, s2⟩ := searchResults_shows hcorpus hr
    rw [resultType_passage] at s1
    rw [ne_eq, resultType_passage] at s2
    dsimp only
    cases f with
    | some x =>
      simp only [indexQuery, Except.ok.injEq, Option.some.injEq, Prod.mk.injEq] at hq
      obtain ⟨rfl, -, rfl⟩ := hq
      refine ⟨fun ht => ?_, fun ht => ?_⟩
      · obtain ⟨scored, rs, e1, e2, e3⟩ := s1 ht
        exact ⟨[x], scored, rs, by simp, by simp, e1, e2, e3⟩
      · obtain ⟨rd, rs, e1, e2, e3⟩ := s2 ht
        exact ⟨rd, rs, _, e1, by simp, e2, e3⟩
    | none =>
      cases c with
      | none => simp [indexQuery] at hq
      | some x =>
        unfold indexQuery at hq
        obtain ⟨docs, hd, hq⟩ := bind_ok' hq
        simp only [pure, Except.pure, Except.ok.injEq, Option.some.injEq, Prod.mk.injEq] at hq
        obtain ⟨rfl, -, rfl⟩ := hq
        have hhas : hasCluster w.db x := by
          by_contra hx
          rw [clusterDocs_unknown x hx] at hd
          cases hd
        obtain ⟨E, hE, hEm⟩ := clusterDocs_spec hs x hhas
        rw [hE] at hd
        cases hd
        refine ⟨fun ht => ?_, fun ht => ?_⟩
        · obtain ⟨scored, rs, e1, e2, e3⟩ := s1 ht
          refine ⟨(clusterFeatures (w.visit x) w.db x).map (·.fid), scored, rs, by simp, ?_, ?_, e2, e3⟩
          · rintro y - ⟨⟩
            exact clusterFeatures_fids hw hs hsize x
          · rw [← e1, List.map_map]; rfl
        · obtain ⟨rd, rs, e1, e2, e3⟩ := s2 ht
          exact ⟨rd, rs, _, e1, fun d => by simp [hEm], e2, e3⟩

/-! ## Rendering documents -/

/-- `render_docs_html_exact`, where no key has two ids. -/
theorem render_docs_html_keys (pick : Nat → Nat → List Nat) (hp : Draws pick)
    (render : List Val → Except Err (List (Val × String))) (content : Val → String) (db : DB)
    (hkeys : ∀ d d' k, (d, k) ∈ db.docKeys → (d', k) ∈ db.docKeys → d = d')
    (hr : ∀ ks, (∀ k ∈ ks, ∃ d, (d, k) ∈ db.docKeys) → render ks = .ok (ks.map (fun k => (k, content k))))
    (query : Bitmap) (hq : ∀ d ∈ query, ∃ k, (d, k) ∈ db.docKeys) (sample : Option Int) (hs : ∀ k, sample = some k → 0 ≤ k) :
    ∃ r S, renderDocsHtml pick render db query sample = .ok r ∧ S ⊆ query ∧ r.map (·.1) = Bitmap.elems S ∧
      (sample = none → S = query) ∧ (∀ k, sample = some k → (S.card : Int) = min k query.card) ∧
      ∀ x ∈ r, (x.1, x.2.1) ∈ db.docKeys ∧ x.2.2 = content x.2.1 := by
  obtain ⟨S, hS1, hS2, hS3, hS4⟩ : ∃ S, maybeSample pick query sample = .ok S ∧ S ⊆ query ∧ (sample = none → S = query) ∧
      (∀ k, sample = some k → (S.card : Int) = min k query.card) := by
    cases sample with
    | none => exact ⟨query, rfl, Finset.Subset.refl _, fun _ => rfl, by simp⟩
    | some k =>
      obtain ⟨S, h1, h2, h3⟩ := sample_bitmap_exact pick hp query k (hs k rfl)
      exact ⟨S, h1, h2, by simp, by rintro _ ⟨⟩; exact h3⟩
  obtain ⟨c1, -, c3⟩ := convertQuery_spec db (Bitmap.elems S)
  obtain ⟨keys, hk⟩ := c3 (fun d hd => hq d (hS2 (by simpa using hd)))
  obtain ⟨k1, k2⟩ := c1 keys hk
  have hnd : (Dict.keys keys).Nodup := by
    show (keys.map (·.1)).Nodup
    have hnd2 : (keys.map (·.2)).Nodup := by rw [k1]; exact Bitmap.elems_nodup S
    refine List.Nodup.map_on ?_ (List.Nodup.of_map _ hnd2)
    intro x hx y hy hxy
    have hx' := k2 x hx
    have hy' := k2 y hy
    rw [← hxy] at hy'
    exact Prod.ext hxy (hkeys _ _ _ hx' hy')
  have hrend := hr (keys.map (·.1)) (by
    intro k hk'
    obtain ⟨x, hx, rfl⟩ := List.mem_map.1 hk'
    exact ⟨x.2, k2 x hx⟩)
  refine ⟨keys.map (fun x => (x.2, x.1, content x.1)), S, ?_, hS2, ?_, hS3, hS4, ?_⟩
  · unfold renderDocsHtml
    rw [hS1]
    show (convertQuery db (Bitmap.elems S) >>= _) = _
    rw [hk]
    show (render (keys.map (·.1)) >>= _) = _
    rw [hrend]
    show List.mapM _ _ = _
    rw [List.map_map]
    have : ∀ l : List (Val × Nat), (∀ x ∈ l, x ∈ keys) →
        (l.map ((fun k => (k, content k)) ∘ fun x => x.1)).mapM (fun x => do
          let d ← Dict.getE keys x.1
          return (d, x.1, x.2)) = (.ok (l.map (fun x => (x.2, x.1, content x.1))) : Except Err _) := by
      intro l
      induction l with
      | nil => intro _; rfl
      | cons x l ih =>
        intro h
        have hx := Dict.getE_eq keys x.1 x.2 (Dict.get?_of_mem hnd (h x (by simp)))
        rw [List.map_cons, List.mapM_cons]
        simp only [Function.comp]
        rw [hx]
        have := ih (fun y hy => h y (by simp [hy]))
        simp only [Function.comp_def] at this
        simp only [bind, Except.bind, pure, Except.pure, Function.comp_def] at this ⊢
        rw [this]
        rfl
    exact this keys (fun x hx => hx)
  · rw [← k1, List.map_map]; rfl
  · intro x hx
    obtain ⟨y, hy, rfl⟩ := List.mem_map.1 hx
    exact ⟨k2 y hy, rfl⟩

/-- **C56.** `render_docs_html(query, random_sample_size=k)`: for documents of the index and a corpus that renders what it is
given, in that order, every document of the query is returned once, in the order of the ids, with its own id, key and
rendering; with a sample size, those of a subset of the query of that size (or the whole query). -/
theorem render_docs_html_exact (pick : Nat → Nat → List Nat) (hp : Draws pick)
    (render : List Val → Except Err (List (Val × String))) (content : Val → String) (db : DB)
    (hkeys : (db.docKeys.map (·.2)).Nodup)
    (hr : ∀ ks, (∀ k ∈ ks, ∃ d, (d, k) ∈ db.docKeys) → render ks = .ok (ks.map (fun k => (k, content k))))
    (query : Bitmap) (hq : ∀ d ∈ query, ∃ k, (d, k) ∈ db.docKeys) (sample : Option Int) (hs : ∀ k, sample = some k → 0 ≤ k) :
    ∃ r S, renderDocsHtml pick render db query sample = .ok r ∧ S ⊆ query ∧ r.map (·.1) = Bitmap.elems S ∧
      (sample = none → S = query) ∧ (∀ k, sample = some k → (S.card : Int) = min k query.card) ∧
      ∀ x ∈ r, (x.1, x.2.1) ∈ db.docKeys ∧ x.2.2 = content x.2.1 :=
  render_docs_html_keys pick hp render content db (fun d d' k h h' => by
    have := List.inj_on_of_nodup_map hkeys h h' rfl
    simpa using this) hr query hq sample hs

/-- **C56, tables.** `render_docs_table(query, random_sample_size=k)` returns the row of every document of the query (or of a
sample of that size) once, in the order of the ids, each under the document's own key. -/
theorem render_docs_table_exact {α : Type} (pick : Nat → Nat → List Nat) (hp : Draws pick)
    (render : List Val → Except Err (List (Val × α))) (content : Val → α) (db : DB)
    (hr : ∀ ks, (∀ k ∈ ks, ∃ d, (d, k) ∈ db.docKeys) → render ks = .ok (ks.map (fun k => (k, content k))))
    (query : Bitmap) (hq : ∀ d ∈ query, ∃ k, (d, k) ∈ db.docKeys) (sample : Option Int) (hs : ∀ k, sample = some k → 0 ≤ k) :
    ∃ r S, renderDocsTable pick render db query sample = .ok r ∧ S ⊆ query ∧
      (sample = none → S = query) ∧ (∀ k, sample = some k → (S.card : Int) = min k query.card) ∧
      List.Forall₂ (fun d x => (d, x.1) ∈ db.docKeys ∧ x.2 = content x.1) (Bitmap.elems S) r := by
  obtain ⟨S, hS1, hS2, hS3, hS4⟩ : ∃ S, maybeSample pick query sample = .ok S ∧ S ⊆ query ∧ (sample = none → S = query) ∧
      (∀ k, sample = some k → (S.card : Int) = min k query.card) := by
    cases sample with
    | none => exact ⟨query, rfl, Finset.Subset.refl _, fun _ => rfl, by simp⟩
    | some k =>
      obtain ⟨S, h1, h2, h3⟩ := sample_bitmap_exact pick hp query k (hs k rfl)
      exact ⟨S, h1, h2, by simp, by rintro _ ⟨⟩; exact h3⟩
  obtain ⟨c1, -, c3⟩ := convertQuery_spec db (Bitmap.elems S)
  obtain ⟨keys, hk⟩ := c3 (fun d hd => hq d (hS2 (by simpa using hd)))
  obtain ⟨k1, k2⟩ := c1 keys hk
  have hrend := hr (keys.map (·.1)) (by
    intro k hk'
    obtain ⟨x, hx, rfl⟩ := List.mem_map.1 hk'
    exact ⟨x.2, k2 x hx⟩)
  refine ⟨(keys.map (·.1)).map (fun k => (k, content k)), S, ?_, hS2, hS3, hS4, ?_⟩
  · unfold renderDocsTable
    rw [hS1]
    show (convertQuery db (Bitmap.elems S) >>= _) = _
    rw [hk]
    exact hrend
  · rw [← k1, List.map_map, List.forall₂_map_left_iff, List.forall₂_map_right_iff, List.forall₂_same]
    intro x hx
    exact ⟨k2 x hx, rfl⟩

/-- Two of the three documents of the example index. -/
example : ∃ r S, renderDocsTable (fun _ k => List.range k) (fun ks => .ok (ks.map (fun k => (k, "row")))) (α := String)
      { docKeys := [(0, .int 5), (1, .text "x"), (2, .int 9)] } {0, 1, 2} (some 2) = .ok r ∧ S ⊆ ({0, 1, 2} : Bitmap) ∧
    (some (2 : Int) = none → S = {0, 1, 2}) ∧ (∀ k, some (2 : Int) = some k → (S.card : Int) = min k ({0, 1, 2} : Bitmap).card) ∧
    List.Forall₂ (fun d x => (d, x.1) ∈ [(0, Val.int 5), (1, .text "x"), (2, .int 9)] ∧ x.2 = "row") (Bitmap.elems S) r :=
  render_docs_table_exact (fun _ k => List.range k) draws_first _ (fun _ => "row") _ (fun _ _ => rfl) {0, 1, 2} (by
      intro d hd
      simp only [Finset.mem_insert, Finset.mem_singleton] at hd
      rcases hd with rfl | rfl | rfl
      exacts [⟨_, .head _⟩, ⟨_, .tail _ (.head _)⟩, ⟨_, .tail _ (.tail _ (.head _))⟩]) (some 2)
    (by intro k hk; cases hk; decide)

/-! ## Examples -/

/-- A request on the example model, with a corpus whose documents can be rendered. -/
def demoWeb : Web Rat where
  db := queryDb
  corpus := some (⟨[.text "k0", .text "k1", .text "k2"], fun ks => .ok (ks.map (fun _ => []))⟩,
    some (fun ks => .ok (ks.map (fun k => (k, "html")))))
  rd := id
  visitC := id
  visit := fun _ => List.reverse
  visitT := id
  arrange := fun _ => id
  workers := 2
  completed := List.reverse
  pick := fun _ k => List.range k
  keep := fun k l => l.take k
  arrangeP := id
  orderP := id
  orderB := id

theorem demoWeb_fair : FairWeb demoWeb where
  mono := monotone_id
  pos := fun x h => h
  visitC := fun l => .refl l
  visit := fun _ l => List.reverse_perm l
  visitT := fun l => .refl l
  arrange := fun _ l => .refl l
  workers := by decide
  completed := fun l => List.reverse_perm l

example : Settled demoWeb.db ∧ ∀ c, (featuresIn demoWeb.db c).length ≤ 2 ^ 62 := by
  refine ⟨queryDb_settled, fun c => ?_⟩
  have h1 : (featuresIn demoWeb.db c).length ≤ demoWeb.db.fc.length := by
    rw [featuresIn, List.length_map]; exact List.length_filter_le _ _
  have h2 : queryDb.fc.length = 6 := by
    have := congrArg List.length queryDb_model.1
    simpa using this
  change _ ≤ queryDb.fc.length at h1
  omega

/-- Cluster 1 between 3 and 2, restricted to the documents of cluster 2; the concordances asked for are not there. -/
example : ((clusterPage demoWeb 1 none (some 2) 30 (some "concordance")).toOption.map (fun p =>
      (p.prev, p.next, p.total, p.features.ids, Results.kind p.results))) =
    some (3, 2, 2, [1, 2], "document") := by decide +kernel

/-- The passages of cluster 1 near those of cluster 2. -/
example : ((clusterPage demoWeb 1 none (some 2) 30 (some "passage")).toOption.map (fun p => Results.kind p.results)) = some "passage" ∧
    ((indexPage demoWeb (some 4) none 5 40 (some "passage")).toOption.map (fun p => p.map (fun p => Results.kind p.results))) =
      some (some "passage") := by decide +kernel

example : ((indexPage demoWeb (some 4) none 5 40 none).toOption.map (fun p => p.map (fun p => (p.total, Results.kind p.results)))) =
    some (some (2, "document")) := by decide +kernel

example : (renderDocsHtml (fun _ k => List.range k) (fun ks => .ok (ks.map (fun k => (k, "html")))) queryDb {0, 2} (some 1)).toOption =
    some [(0, .text "k0", "html")] ∧ (queryDb.docKeys.map (·.2)).Nodup := by decide +kernel

end Hyperreal.Props
