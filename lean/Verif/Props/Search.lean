import Verif.Props.PipelineLater
import Verif.Props.ExportGraph
import Verif.Spec.Search

/-!
# Searching the documents
-/

namespace Hyperreal.Props
open Atomic Spec Cli Migrate Web Serve

variable {int : String → Option Int} {σ : Type} [LinearOrder σ]

/-- The Jaccard similarity of two sets of documents is the share of documents. -/
theorem similarity_share {α : Type} (rd : Rat → σ) (keys : List α) (P Q : α → Prop) (A B : Bitmap)
    (hA : ∀ d, d ∈ A ↔ ∃ k, keys[d]? = some k ∧ P k) (hB : ∀ d, d ∈ B ↔ ∃ k, keys[d]? = some k ∧ Q k) :
    similarity rd A B = rd (share keys P Q) := by
  have h1 : (A ∩ B).card = howMany (fun d => P d ∧ Q d) keys := by
    apply card_howMany
    intro d
    rw [Finset.mem_inter, hA, hB]
    constructor
    · rintro ⟨⟨k, h, hp⟩, k', h', hq⟩
      rw [h] at h'; cases h'
      exact ⟨k, h, hp, hq⟩
    · rintro ⟨k, h, hp, hq⟩; exact ⟨⟨k, h, hp⟩, k, h, hq⟩
  have h2 : (A ∪ B).card = howMany (fun d => P d ∨ Q d) keys := by
    apply card_howMany
    intro d
    rw [Finset.mem_union, hA, hB]
    constructor
    · rintro (⟨k, h, hp⟩ | ⟨k, h, hq⟩)
      · exact ⟨k, h, .inl hp⟩
      · exact ⟨k, h, .inr hq⟩
    · rintro ⟨k, h, hp | hq⟩
      · exact .inl ⟨k, h, hp⟩
      · exact .inr ⟨k, h, hq⟩
  unfold similarity share
  rw [h1, h2]

/-- A ranking of the features of a cluster, in terms of the documents. -/
theorem ranked_near {content : Val → Features} {keys : List Val} (rd : Rat → σ) (db : DB) (hwf : Wellformed db)
    (hfeat : ∀ r ∈ db.features, ∀ d, d ∈ r.docs ↔ ∃ k, keys[d]? = some k ∧ HasValue content k r.field r.value)
    (s : FeatRow) (hs : s ∈ db.features) (k : Nat) (c : Int) (rs : List (Nat × String × Val × σ))
    (h : Ranked rd db (db.docsOf s.fid) k c rs) :
    IsNearValues (HasValue content) keys rd db s.field s.value c k (rs.map (·.2)) := by
  have hdocs : ∀ r ∈ db.features, db.docsOf r.fid = r.docs := fun r hr => by
    rw [DB.docsOf, (feature?_eq_some hwf r.fid r).2 ⟨hr, rfl⟩]
  have hin : ∀ r ∈ db.features, ∀ d, d ∈ db.docsOf r.fid ↔ ∃ k, keys[d]? = some k ∧ HasValue content k r.field r.value :=
    fun r hr d => by rw [hdocs r hr]; exact hfeat r hr d
  have hsim : ∀ r ∈ db.features, similarity rd (db.docsOf s.fid) (db.docsOf r.fid) =
      rd (share keys (HasValue content · s.field s.value) (HasValue content · r.field r.value)) := fun r hr =>
    similarity_share rd keys _ _ _ _ (hin s hs) (hin r hr)
  have hboth : ∀ r ∈ db.features, (db.docsOf s.fid ∩ db.docsOf r.fid).Nonempty ↔
      ∃ d ∈ keys, HasValue content d s.field s.value ∧ HasValue content d r.field r.value := by
    intro r hr
    constructor
    · rintro ⟨d, hd⟩
      obtain ⟨h1, h2⟩ := Finset.mem_inter.1 hd
      obtain ⟨k1, e1, v1⟩ := (hin s hs d).1 h1
      obtain ⟨k2, e2, v2⟩ := (hin r hr d).1 h2
      rw [e1] at e2; cases e2
      exact ⟨k1, List.mem_of_getElem? e1, v1, v2⟩
    · rintro ⟨x, hx, v1, v2⟩
      obtain ⟨d, hd⟩ := List.getElem?_of_mem hx
      exact ⟨d, Finset.mem_inter.2 ⟨(hin s hs d).2 ⟨x, hd, v1⟩, (hin r hr d).2 ⟨x, hd, v2⟩⟩⟩
  have hnd := ranked_nodup h
  obtain ⟨L, hL, hp⟩ := h.best
  have hmem : ∀ x ∈ rs, assign db x.1 = some c ∧ (db.docsOf s.fid ∩ db.docsOf x.1).Nonempty ∧
      x.2.2.2 = similarity rd (db.docsOf s.fid) (db.docsOf x.1) := by
    intro x hx
    obtain ⟨f', h1, h2, e⟩ := hL.members _ (hp.mem_iff.1 (List.mem_map.2 ⟨x, hx, rfl⟩))
    have e2 : (x.1 : Int) = (f' : Int) := congrArg (fun z => (ofLex z).2) e
    have e1 : x.2.2.2 = similarity rd (db.docsOf s.fid) (db.docsOf f') := congrArg (fun z => (ofLex z).1) e
    have : f' = x.1 := by exact_mod_cast e2.symm
    subst this
    exact ⟨h1, h2, e1⟩
  have hlen : rs.length = L.length := by have := hp.length_eq; simpa using this
  refine ⟨by rw [List.length_map, hlen]; exact hL.size, ?_, ?_, ?_, ?_, ?_⟩
  · rw [List.map_map]
    refine List.Nodup.map_on ?_ (List.Nodup.of_map _ hnd)
    intro x hx y hy hxy
    obtain ⟨a, ha, a1, a2, a3⟩ := h.named x hx
    obtain ⟨b, hb, b1, b2, b3⟩ := h.named y hy
    have hxy : (x.2.1, x.2.2.1) = (y.2.1, y.2.2.1) := hxy
    have : a = b := List.inj_on_of_nodup_map hwf.featureKeys ha hb (by
      show (a.field, a.value) = (b.field, b.value)
      rw [a2, a3, b2, b3, hxy])
    exact List.inj_on_of_nodup_map hnd hx hy (by rw [← a1, ← b1, this])
  · intro y hy
    obtain ⟨x, hx, rfl⟩ := List.mem_map.1 hy
    obtain ⟨a, ha, a1, a2, a3⟩ := h.named x hx
    obtain ⟨h1, h2, -⟩ := hmem x hx
    rw [← a1] at h1 h2
    refine ⟨⟨a, ha, a2, a3, h1⟩, ?_⟩
    rw [← a2, ← a3]
    exact (hboth a ha).1 h2
  · intro y hy
    obtain ⟨x, hx, rfl⟩ := List.mem_map.1 hy
    obtain ⟨a, ha, a1, a2, a3⟩ := h.named x hx
    obtain ⟨-, -, h3⟩ := hmem x hx
    rw [h3, ← a1, hsim a ha, a2, a3]
  · have := h.descending
    rw [List.pairwise_map] at this ⊢
    exact this
  · rintro fl y ⟨r, hr, rfl, rfl, ha⟩ hd hn
    have hcand : Candidate rd db (db.docsOf s.fid) c (toLex (similarity rd (db.docsOf s.fid) (db.docsOf r.fid), (r.fid : Int))) :=
      ⟨r.fid, ha, (hboth r hr).2 hd, rfl⟩
    obtain ⟨b1, b2⟩ := hL.best _ hcand (by
      intro hin'
      obtain ⟨x, hx, e⟩ := List.mem_map.1 (hp.mem_iff.2 hin')
      have e2 : (x.1 : Int) = (r.fid : Int) := congrArg (fun z => (ofLex z).2) e
      obtain ⟨a, ha', a1, a2, a3⟩ := h.named x hx
      have : a = r := List.inj_on_of_nodup_map hwf.featureIds ha' hr (a1.trans (by exact_mod_cast e2))
      refine hn ?_
      rw [List.map_map, ← this]
      exact List.mem_map.2 ⟨x, hx, by show (x.2.1, x.2.2.1) = _; rw [a2, a3]⟩)
    refine ⟨by rw [List.length_map, hlen, b1], ?_⟩
    intro z hz
    obtain ⟨x, hx, rfl⟩ := List.mem_map.1 hz
    have := b2 _ (hp.mem_iff.1 (List.mem_map.2 ⟨x, hx, rfl⟩))
    rw [← hsim r hr]
    rcases (Prod.Lex.lt_iff.1 this) with h | ⟨h, -⟩
    · exact h.le
    · exact h.le

/-- The index page of a feature with a corpus that renders its documents: it can be shown, with a sample of the documents. -/
theorem index_page_documents (w : Web σ) (hw : FairWeb w) (hs : Settled w.db) (hsize : ∀ c, (featuresIn w.db c).length ≤ 2 ^ 62)
    (hne : w.db.clusters ≠ [])
    (corpus : Corpus) (render : List Val → Except Err (List (Val × String))) (hcorpus : w.corpus = some (corpus, some render))
    (hp : Draws w.pick) (shown : Val → String)
    (hkeys : ∀ d d' k, (d, k) ∈ w.db.docKeys → (d', k) ∈ w.db.docKeys → d = d')
    (hr : ∀ ks, (∀ k ∈ ks, ∃ d, (d, k) ∈ w.db.docKeys) → render ks = .ok (ks.map (fun k => (k, shown k))))
    (f : Nat) (hcov : ∀ d ∈ w.db.docsOf f, ∃ k, (d, k) ∈ w.db.docKeys) (n topK : Nat) (hk : 1 ≤ topK) :
    ∃ p, indexPage w (some f) none n topK none = .ok (some p) ∧ p.type = "document" ∧ p.feature = some f ∧
      (w.db.docsOf f = ∅ → p.results = .nothing) ∧
      (w.db.docsOf f ≠ ∅ → ∃ rs S, p.results = .documents rs ∧ S ⊆ w.db.docsOf f ∧
        rs.map (·.1) = Bitmap.elems S ∧ S.card = min n (w.db.docsOf f).card ∧
        ∀ x ∈ rs, (x.1, x.2.1) ∈ w.db.docKeys ∧ x.2.2 = shown x.2.1) := by
  have hne' : clusterIds w.db ≠ [] := fun h => hne (by
    have := (clusterIds_perm w.db).symm
    rw [h] at this
    simpa using this.eq_nil)
  obtain ⟨rs, S, h1, h2, h3, -, h5, h6⟩ := render_docs_html_keys w.pick hp render shown w.db hkeys hr (w.db.docsOf f)
    hcov (some (n : Int)) (by rintro k ⟨⟩; omega)
  unfold indexPage
  rw [if_neg hne']
  simp only [indexQuery, bind, Except.bind, pure, Except.pure]
  by_cases h0 : w.db.docsOf f = ∅
  · rw [if_pos h0]
    exact ⟨_, rfl, rfl, rfl, fun _ => rfl, fun h => absurd h0 h⟩
  · rw [if_neg h0]
    obtain ⟨out, ho, -⟩ := pivot_clusters_spec w.rd hw.mono hw.pos w.visitC hw.visitC w.visit hw.visit
      w.arrange hw.arrange w.workers hw.workers w.completed hw.completed w.db hs hsize (w.db.docsOf f) [] (by simp) (by simp) topK hk
    have hres : ∀ F C, searchResults w (resultType none) (w.db.docsOf f) F C n = .ok (.documents rs) := by
      intro F C
      unfold searchResults
      rw [hcorpus]
      dsimp only
      rw [if_neg (by decide), if_neg (by decide)]
      unfold viewDocuments
      dsimp only
      rw [h1]
      rfl
    rw [ho]
    simp only [hres]
    refine ⟨_, rfl, rfl, rfl, fun h => absurd h h0, fun _ => ⟨rs, S, rfl, h2, h3, ?_, h6⟩⟩
    have := h5 n rfl
    omega

/-- Searching in an index file that describes the documents of a corpus, with a corpus that renders them; the model may be older. -/
theorem described_search {corpus : Corpus} {content : Val → Features} (hint : ReadsNumbers int) (hnd : corpus.keys.Nodup)
    (f : File) (hf : Servable f) (hcur : Current f)
    (hfeat : ∀ r ∈ f.data.features, ∀ d, d ∈ r.docs ↔ ∃ k, corpus.keys[d]? = some k ∧ HasValue content k r.field r.value)
    (hkeys : ∀ d k, (d, k) ∈ f.data.docKeys ↔ corpus.keys[d]? = some k)
    (hsize : ∀ c, (featuresIn f.data c).length ≤ 2 ^ 62)
    (backing : Corpus) (render : List Val → Except Err (List (Val × String))) (shown : Val → String)
    (hrender : ∀ ks, (∀ k ∈ ks, k ∈ corpus.keys) → render ks = .ok (ks.map (fun k => (k, shown k))))
    (v : Visit σ) (hw : FairWeb v.web) (hp : Draws v.web.pick) (hmodel : ∃ c fl x, ValueIn f.data fl x c) :
    let ask := fun r => follow int (.ok (some (backing, some render))) f { v with request := r }
    (∃ p, (ask (.get "/index/0") 2).2 = .index p ∧ IsOverviewPage (HasValue content) corpus.keys f.data 40 p) ∧
    (∀ c field value n, (ask (searchForm "0" c field value) n).1.data = f.data) ∧
    (∀ field value, (ask (searchForm "0" (some 0) field value) 3).2 = (ask (searchForm "0" none field value) 3).2) ∧
    (∀ c field value, c ≠ 0 → (∃ fl x, ValueIn f.data fl x c) →
      ((¬ ∃ r ∈ f.data.features, r.field = field ∧ r.value = .text value) →
        (ask (searchForm "0" (some c) field value) 3).2 = .failed .keyError) ∧
      ((∃ r ∈ f.data.features, r.field = field ∧ r.value = .text value) →
        ∃ p, (ask (searchForm "0" (some c) field value) 3).2 = .cluster p ∧
          IsFilteredPage (HasValue content) corpus.keys id shown f.data field (.text value) c 30 p)) ∧
    ∀ field value,
      ((¬ ∃ r ∈ f.data.features, r.field = field ∧ r.value = .text value) →
        (ask (searchForm "0" none field value) 3).2 = .failed .keyError) ∧
      ((∃ r ∈ f.data.features, r.field = field ∧ r.value = .text value) →
        ∃ p, (ask (searchForm "0" none field value) 3).2 = .index p ∧
          ((∃ k ∈ corpus.keys, HasValue content k field (.text value)) →
            IsSearchPage (HasValue content) corpus.keys id shown v.web.rd f.data field (.text value) 5 40 p) ∧
          ((¬ ∃ k ∈ corpus.keys, HasValue content k field (.text value)) →
            IsOverviewPage (HasValue content) corpus.keys f.data 40 p)) := by
  classical
  intro ask
  obtain ⟨b, o1, o2, o3, o4, o5, -⟩ := servable_opens f hf
  have hdata := o5 hcur
  have hset : Settled f.data := by rw [← hdata]; exact o3
  have hwf := hset.toWellformed
  set w : Web σ := v.on (some (backing, some render)) f.data with hwdef
  have hdb : w.db = f.data := rfl
  have hfw : FairWeb w := ⟨hw.mono, hw.pos, hw.visitC, hw.visit, hw.visitT, hw.arrange, hw.workers, hw.completed⟩
  have hreads := fun r (hr : r.post = false) n => follow_reads (int := int) (some (backing, some render)) f hf { v with request := r } hr n
  have hzero : int "0" = some 0 := hint 0
  have hpath : PathPart "0" := by decide +kernel
  have hknown : ∀ fid c, assign f.data fid = some c → ∃ r ∈ f.data.features, r.fid = fid := by
    intro fid c h
    obtain ⟨r, hr, e1, e2⟩ := (assign_some_iff hwf fid c).1 h
    obtain ⟨x, hx, e⟩ := hwf.knownFeature r hr
    exact ⟨x, hx, e.1.trans e1⟩
  have hdocs : ∀ r ∈ f.data.features, f.data.docsOf r.fid = r.docs := fun r hr => by
    rw [DB.docsOf, (feature?_eq_some hwf r.fid r).2 ⟨hr, rfl⟩]
  have hin : ∀ r ∈ f.data.features, ∀ d, d ∈ f.data.docsOf r.fid ↔
      ∃ k, corpus.keys[d]? = some k ∧ HasValue content k r.field r.value := fun r hr d => by rw [hdocs r hr]; exact hfeat r hr d
  have hcl : ∀ c, hasCluster f.data c ↔ ∃ fl x, ValueIn f.data fl x c := by
    intro c
    constructor
    · rintro ⟨k, hk, rfl⟩
      obtain ⟨r, hr, e⟩ := (hset.summaries k hk).nonempty
      obtain ⟨x, hx, e'⟩ := hwf.knownFeature r hr
      exact ⟨_, _, x, hx, rfl, rfl, (assign_some_iff hwf _ _).2 ⟨r, hr, e'.1.symm, e⟩⟩
    · rintro ⟨fl, x, r, hr, -, -, h⟩
      obtain ⟨y, hy, e1, e2⟩ := (assign_some_iff hwf _ _).1 h
      obtain ⟨k, hk, e⟩ := hwf.knownCluster y hy
      exact ⟨k, hk, e.trans e2⟩
  have hcov : ∀ c d, CoveredBy f.data c d ↔ ∃ k, corpus.keys[d]? = some k ∧ InCluster (HasValue content) f.data k c := by
    intro c d
    constructor
    · rintro ⟨fid, h1, h2⟩
      obtain ⟨r, hr, rfl⟩ := hknown fid c h1
      obtain ⟨k, hk, hv⟩ := (hin r hr d).1 h2
      exact ⟨k, hk, _, _, ⟨r, hr, rfl, rfl, h1⟩, hv⟩
    · rintro ⟨k, hk, fl, x, ⟨r, hr, rfl, rfl, h1⟩, hv⟩
      exact ⟨r.fid, h1, (hin r hr d).2 ⟨k, hk, hv⟩⟩
  have hne : w.db.clusters ≠ [] := by
    obtain ⟨c, hc⟩ := hmodel
    obtain ⟨k, hk, -⟩ := (hcl c).2 hc
    exact List.ne_nil_of_mem hk
  -- the overview
  have hover : ∀ (p : IndexPage σ) g, indexPage w g none 5 40 none = .ok (some p) → p.results = .nothing →
      (∀ x, g = some x → f.data.docsOf x = ∅) → IsOverviewPage (HasValue content) corpus.keys f.data 40 p := by
    intro p g hpg hnone hg
    obtain ⟨-, h2⟩ := index_page_spec w hfw hset hsize g none 5 40 (by decide) none _ hpg
    obtain ⟨Q, hQ, h3, h4, -⟩ := h2 p rfl
    have hQe : Q = ∅ := by
      rw [Finset.eq_empty_iff_forall_notMem]
      intro d hd
      rcases (hQ d).1 hd with ⟨x, hx, hx'⟩ | ⟨-, x, hx, -⟩
      · have hx' : d ∈ f.data.docsOf x := hx'
        rw [hg x hx] at hx'
        simp at hx'
      · cases hx
    obtain ⟨L, l1, l2, l3, l4⟩ := h4 hQe
    refine ⟨by rw [h3, hQe]; rfl, hnone, L, l1, l2.nodup_iff.2 hwf.clusterIds, ?_, l3, ?_⟩
    · intro c
      rw [l2.mem_iff, ← hcl]
      simp [hasCluster, w, Visit.on]
    · intro x hx
      obtain ⟨⟨D, d1, d2⟩, l5, l6⟩ := l4 x hx
      refine ⟨?_, listed_values f.data hset corpus.keys hfeat x.1 40 x.2.2 l5 l6⟩
      rw [d2]
      exact card_howMany _ _ _ (fun d => (d1 d).trans (hcov x.1 d))
  have hunique : ∀ d d' k, (d, k) ∈ f.data.docKeys → (d', k) ∈ f.data.docKeys → d = d' := by
    intro d d' k h h'
    have e1 := (hkeys d k).1 h
    have e2 := (hkeys d' k).1 h'
    obtain ⟨l1, g1⟩ := List.getElem?_eq_some_iff.1 e1
    obtain ⟨l2, g2⟩ := List.getElem?_eq_some_iff.1 e2
    exact (List.Nodup.getElem_inj_iff hnd).1 (g1.trans g2.symm)
  have hask : ∀ c field value, (ask (searchForm "0" c field value) 3).2 = browse int v.luck v.fault w 3 (searchForm "0" c field value) := by
    intro c field value
    have h := (hreads (searchForm "0" c field value) rfl 3).2
    rw [hdata] at h
    exact h
  have hlook : ∀ field value, (¬ ∃ r ∈ f.data.features, r.field = field ∧ r.value = .text value) →
      Web.search w.db field value = .error .keyError := by
    intro field value hno
    show lookupFeatureId f.data field (.text value) = _
    unfold lookupFeatureId
    rw [List.find?_eq_none.2]
    intro r hr h
    exact hno ⟨r, hr, by simpa using h⟩
  refine ⟨?_, ?_, ?_, ?_, ?_⟩
  · have hne' : clusterIds w.db ≠ [] := fun h => hne (by
      have := (clusterIds_perm w.db).symm
      rw [h] at this
      simpa using this.eq_nil)
    obtain ⟨p, hp1, hp2⟩ : ∃ p, indexPage w none none 5 40 none = .ok (some p) ∧ p.results = .nothing := by
      unfold indexPage
      rw [if_neg hne']
      exact ⟨_, rfl, rfl⟩
    refine ⟨p, ?_, hover p none hp1 hp2 (by simp)⟩
    have hgo : browse int v.luck v.fault w 2 (.get "/index/0") = Goal.page w (.overview none none) :=
      goal_overview hint hzero hpath none none (.inl rfl) (shape_index hpath) 0
    have hask : (ask (.get "/index/0") 2).2 = browse int v.luck v.fault w 2 (.get "/index/0") := by
      have h := (hreads (.get "/index/0") rfl 2).2
      rw [hdata] at h
      exact h
    rw [hask, hgo]
    unfold Goal.page
    dsimp only
    rw [hp1]
  · intro c field value n
    rcases (hreads (searchForm "0" c field value) rfl n).1 with h | h
    · exact congrArg File.data h
    · exact (congrArg File.data h).trans hdata
  · intro field value
    rw [hask, hask]
    obtain ⟨s1, s2⟩ := search_form_partial (luck := v.luck) (fault := v.fault) hint hzero hpath w field value 0
    cases hs : Web.search w.db field value with
    | error e => rw [s1 e hs, s1 e hs]
    | ok fid =>
      rw [(s2 fid hs).1]
      exact search_leaves_cluster_zero hint hzero hpath w field value fid hs 0
  · intro c field value hc0 hc
    obtain ⟨s1, s2⟩ := search_form_partial (luck := v.luck) (fault := v.fault) hint hzero hpath w field value 0
    refine ⟨fun hno => by rw [hask]; exact s1 _ (hlook field value hno) (some c), ?_⟩
    rintro ⟨q, hq, rfl, hval⟩
    have hfind : Web.search w.db q.field value = .ok q.fid :=
      (search_finds_text_partial f.data hwf q.field value q.fid).2 ⟨q, hq, rfl, rfl, hval⟩
    rw [hask, (s2 q.fid hfind).2 c hc0, ← hval]
    have hc' := (hcl c).2 hc
    obtain ⟨p, rs, S, h1, h2, h3, h4, h5, h6⟩ := cluster_page_documents w hfw hset hsize backing render rfl hp shown hunique
      (by
        intro ks hks
        refine hrender ks (fun k hk => ?_)
        obtain ⟨d, hd⟩ := hks k hk
        exact List.mem_of_getElem? ((hkeys d k).1 hd))
      (by
        intro c d hd
        obtain ⟨k, hk, -⟩ := (hcov c d).1 hd
        exact ⟨k, (hkeys d k).2 hk⟩)
      c hc' (some q.fid) none (by simp) 30 none (by simp)
    obtain ⟨e1, Q, hQ, e2, e3, -⟩ := (cluster_page_spec w hfw hset hsize c (some q.fid) none 30 none).1 p h1
    have hon : ∀ d, OnPage f.data c (some q.fid) none d ↔ ∃ k, corpus.keys[d]? = some k ∧
        (HasValue content k q.field q.value ∧ InCluster (HasValue content) f.data k c) := by
      intro d
      unfold OnPage
      rw [hcov]
      constructor
      · rintro ⟨⟨k, hk, hin'⟩, h, -⟩
        obtain ⟨k', hk', hv⟩ := (hin q hq d).1 (h q.fid rfl)
        rw [hk] at hk'; cases hk'
        exact ⟨k, hk, hv, hin'⟩
      · rintro ⟨k, hk, hv, hin'⟩
        refine ⟨⟨k, hk, hin'⟩, ?_, by simp⟩
        rintro x ⟨⟩
        exact (hin q hq d).2 ⟨k, hk, hv⟩
    have hQ' : ∀ d, d ∈ Q ↔ ∃ k, corpus.keys[d]? = some k ∧
        (HasValue content k q.field q.value ∧ InCluster (HasValue content) f.data k c) := fun d => (hQ d).trans (hon d)
    have htot : p.total = 0 ↔ Q = ∅ := by rw [e2, Finset.card_eq_zero]
    have hsub : ∀ r ∈ f.data.features, assign f.data r.fid = some c →
        ((Q ∩ f.data.docsOf r.fid).Nonempty ↔
          ∃ k ∈ corpus.keys, HasValue content k q.field q.value ∧ HasValue content k r.field r.value) := by
      intro r hr ha
      constructor
      · rintro ⟨d, hd⟩
        obtain ⟨k, hk, hv⟩ := (hin r hr d).1 (Finset.mem_inter.1 hd).2
        obtain ⟨k', hk', hv', -⟩ := (hQ' d).1 (Finset.mem_inter.1 hd).1
        rw [hk] at hk'; cases hk'
        exact ⟨k, List.mem_of_getElem? hk, hv', hv⟩
      · rintro ⟨k, hk, hv', hv⟩
        obtain ⟨d, hd⟩ := List.getElem?_of_mem hk
        exact ⟨d, Finset.mem_inter.2 ⟨(hQ' d).2 ⟨k, hd, hv', _, _, ⟨r, hr, rfl, rfl, ha⟩, hv⟩, (hin r hr d).2 ⟨k, hd, hv⟩⟩⟩
    refine ⟨p, ?_, ⟨e1, ?_, clusterPage_type h1, ?_, ?_⟩⟩
    · unfold Goal.page
      dsimp only
      rw [h1]
    · have nodup_of : ∀ {β : Type} (L : List β) (fid : β → Nat) (name : β → String × Val), (L.map fid).Nodup →
          (∀ x ∈ L, ∃ r ∈ f.data.features, r.fid = fid x ∧ (r.field, r.value) = name x) → (L.map name).Nodup := by
        intro β L fid name hids hname
        refine List.Nodup.map_on ?_ (List.Nodup.of_map _ hids)
        intro x hx y hy hxy
        obtain ⟨a, ha, a1, a2⟩ := hname x hx
        obtain ⟨b, hb, b1, b2⟩ := hname y hy
        have : a = b := List.inj_on_of_nodup_map hwf.featureKeys ha hb (by
          show (a.field, a.value) = (b.field, b.value)
          rw [a2, b2, hxy])
        exact List.inj_on_of_nodup_map hids hx hy (by rw [← a1, ← b1, this])
      have mem_of : ∀ {β : Type} (L : List β) (fid : β → Nat) (name : β → String × Val) (P : FeatRow → Prop),
          (∀ x ∈ L, ∃ r ∈ f.data.features, r.fid = fid x ∧ (r.field, r.value) = name x) →
          (∀ r ∈ f.data.features, r.fid ∈ L.map fid ↔ assign f.data r.fid = some c ∧ P r) →
          ∀ fl x, (fl, x) ∈ L.map name ↔ ∃ r ∈ f.data.features, r.field = fl ∧ r.value = x ∧ assign f.data r.fid = some c ∧ P r := by
        intro β L fid name P hname hmem fl x
        constructor
        · intro h
          obtain ⟨y, hy, e⟩ := List.mem_map.1 h
          obtain ⟨a, ha, a1, a2⟩ := hname y hy
          have a3 := a2.trans e
          simp only [Prod.mk.injEq] at a3
          exact ⟨a, ha, a3.1, a3.2, (hmem a ha).1 (by rw [a1]; exact List.mem_map.2 ⟨y, hy, rfl⟩)⟩
        · rintro ⟨a, ha, rfl, rfl, h⟩
          obtain ⟨y, hy, e⟩ := List.mem_map.1 ((hmem a ha).2 h)
          obtain ⟨a', ha', a1, a2⟩ := hname y hy
          have : a' = a := List.inj_on_of_nodup_map hwf.featureIds ha' ha (a1.trans e)
          subst this
          exact List.mem_map.2 ⟨y, hy, a2.symm⟩
      rcases e3 with ⟨h0, listed, hl, hr⟩ | ⟨h0, listed, hl, hr, hnm⟩
      · have hall := ranked_all hwf hr
        have hname : ∀ x ∈ listed, ∃ r ∈ f.data.features, r.fid = x.1 ∧ (r.field, r.value) = (x.2.1, x.2.2.1) := by
          intro x hx
          obtain ⟨r, hr', a1, a2, a3⟩ := hr.named x hx
          exact ⟨r, hr', a1, by rw [a2, a3]⟩
        rw [hl]
        refine ⟨nodup_of listed (·.1) _ (ranked_nodup hr) hname, fun fl x => ?_⟩
        show (fl, x) ∈ listed.map _ ↔ _
        rw [mem_of listed (·.1) _ (fun r => ∃ k ∈ corpus.keys, HasValue content k q.field q.value ∧ HasValue content k r.field r.value) hname (fun r hr' => by
          rw [hall r.fid]
          exact and_congr_right (fun h => hsub r hr' h))]
        constructor
        · rintro ⟨r, hr', rfl, rfl, h1, h2⟩
          exact ⟨⟨r, hr', rfl, rfl, h1⟩, .inr h2⟩
        · rintro ⟨⟨r, hr', rfl, rfl, h1⟩, h2⟩
          exact ⟨r, hr', rfl, rfl, h1, h2.resolve_left (fun h => h0 (htot.1 h))⟩
      · have hname : ∀ x ∈ listed, ∃ r ∈ f.data.features, r.fid = x.fid ∧ (r.field, r.value) = (x.field, x.value) := by
          intro x hx
          obtain ⟨r, hr', a1, a2, a3⟩ := hnm x hx
          exact ⟨r, hr', a1, by rw [a2, a3]⟩
        have hfull : ∀ fid, fid ∈ listed.map (·.fid) ↔ assign f.data fid = some c := by
          intro fid
          have hsubl : listed.map (·.fid) ⊆ featuresIn f.data c := by
            intro y hy
            obtain ⟨x, hx, rfl⟩ := List.mem_map.1 hy
            exact (mem_featuresIn hwf c _).2 (hr.inCluster x hx)
          have hlen : (listed.map (·.fid)).length = (featuresIn f.data c).length := by
            rw [List.length_map, hr.size]
            exact Nat.min_eq_right (hsize c)
          have := (List.subperm_of_subset hr.once hsubl).perm_of_length_le hlen.ge
          rw [this.mem_iff, mem_featuresIn hwf]
        rw [hl]
        refine ⟨nodup_of listed (·.fid) _ hr.once hname, fun fl x => ?_⟩
        show (fl, x) ∈ listed.map _ ↔ _
        rw [mem_of listed (·.fid) _ (fun _ => True) hname (fun r hr' => by rw [hfull]; simp)]
        constructor
        · rintro ⟨r, hr', rfl, rfl, h1, -⟩
          exact ⟨⟨r, hr', rfl, rfl, h1⟩, .inl (htot.2 h0)⟩
        · rintro ⟨⟨r, hr', rfl, rfl, h1⟩, -⟩
          exact ⟨r, hr', rfl, rfl, h1, trivial⟩
    · rw [e2]
      exact card_howMany _ _ _ hQ'
    · have hlen : rs.length = S.card := by
        have := congrArg List.length h4
        rw [List.length_map] at this
        rw [this, Bitmap.elems_length]
      have hndr : (rs.map (·.2.1)).Nodup := by
        have h7 : (rs.map (·.1)).Nodup := by rw [h4]; exact Bitmap.elems_nodup S
        refine List.Nodup.map_on ?_ (List.Nodup.of_map _ h7)
        intro x hx y hy hxy
        have g1 := (hkeys _ _).1 (h6 x hx).1
        have g2 := (hkeys _ _).1 (h6 y hy).1
        rw [← hxy] at g2
        obtain ⟨l1, g1⟩ := List.getElem?_eq_some_iff.1 g1
        obtain ⟨l2, g2⟩ := List.getElem?_eq_some_iff.1 g2
        have := (List.Nodup.getElem_inj_iff hnd).1 (g1.trans g2.symm)
        exact List.inj_on_of_nodup_map h7 hx hy this
      refine ⟨rs, h2, by rw [hlen, h5], hndr, ?_⟩
      intro r hr
      obtain ⟨g1, g2⟩ := h6 r hr
      have hd : r.1 ∈ S := by
        have : r.1 ∈ Bitmap.elems S := by rw [← h4]; exact List.mem_map.2 ⟨r, hr, rfl⟩
        simpa using this
      have hk := (hkeys _ _).1 g1
      obtain ⟨k, hk', hh⟩ := (hon r.1).1 (h3 r.1 hd)
      rw [hk] at hk'
      cases hk'
      exact ⟨r.2.1, List.mem_of_getElem? hk, hh, rfl, g2⟩
  · intro field value
    obtain ⟨s1, s2⟩ := search_form_partial (luck := v.luck) (fault := v.fault) hint hzero hpath w field value 0
    refine ⟨?_, ?_⟩
    · intro hno
      rw [hask]
      exact s1 _ (hlook field value hno) none
    · rintro ⟨r, hr, rfl, hval⟩
      have hfind : Web.search w.db r.field value = .ok r.fid :=
        (search_finds_text_partial f.data hwf r.field value r.fid).2 ⟨r, hr, rfl, rfl, hval⟩
      rw [hask, (s2 r.fid hfind).1, ← hval]
      obtain ⟨p, p1, p2, p2', p3, p4⟩ := index_page_documents w hfw hset hsize hne backing render rfl hp shown hunique
        (by
          intro ks hks
          refine hrender ks (fun k hk => ?_)
          obtain ⟨d, hd⟩ := hks k hk
          exact List.mem_of_getElem? ((hkeys d k).1 hd)) r.fid
        (by
          intro d hd
          obtain ⟨k, hk, -⟩ := (hin r hr d).1 hd
          exact ⟨k, (hkeys d k).2 hk⟩) 5 40 (by decide)
      have hempty : f.data.docsOf r.fid = ∅ ↔ ¬ ∃ k ∈ corpus.keys, HasValue content k r.field r.value := by
        rw [Finset.eq_empty_iff_forall_notMem]
        constructor
        · rintro h ⟨k, hk, hv⟩
          obtain ⟨d, hd⟩ := List.getElem?_of_mem hk
          exact h d ((hin r hr d).2 ⟨k, hd, hv⟩)
        · intro h d hd
          obtain ⟨k, hk, hv⟩ := (hin r hr d).1 hd
          exact h ⟨k, List.mem_of_getElem? hk, hv⟩
      refine ⟨p, ?_, ?_, ?_⟩
      · unfold Goal.page
        dsimp only
        rw [p1]
      · intro hsome
        have hQne : f.data.docsOf r.fid ≠ ∅ := fun h => (hempty.1 h) hsome
        obtain ⟨rs, S, r1, r2, r3, r4, r5⟩ := p4 hQne
        obtain ⟨-, h2⟩ := index_page_spec w hfw hset hsize (some r.fid) none 5 40 (by decide) none _ p1
        obtain ⟨Q, hQ, h3, -, h4⟩ := h2 p rfl
        have hQ' : Q = f.data.docsOf r.fid := by
          ext d
          rw [hQ]
          simp [w, Visit.on]
        subst hQ'
        obtain ⟨L, l1, l2, l3, l4, l5⟩ := h4 hQne
        have htot : p.total = howMany (fun k => HasValue content k r.field r.value) corpus.keys := by
          rw [h3]; exact card_howMany _ _ _ (hin r hr)
        refine ⟨p2, htot, ⟨rs, r1, ?_, ?_, ?_⟩, L, l1, l2, ?_, l4, ?_⟩
        · have := congrArg List.length r3
          rw [List.length_map, Bitmap.elems_length] at this
          rw [this, r4, h3]
          rfl
        · have h7 : (rs.map (·.1)).Nodup := by rw [r3]; exact Bitmap.elems_nodup S
          refine List.Nodup.map_on ?_ (List.Nodup.of_map _ h7)
          intro x hx y hy hxy
          have g2 := (r5 y hy).1
          rw [← hxy] at g2
          exact List.inj_on_of_nodup_map h7 hx hy (hunique _ _ _ (r5 x hx).1 g2)
        · intro x hx
          obtain ⟨g1, g2⟩ := r5 x hx
          have hd : x.1 ∈ S := by
            have : x.1 ∈ Bitmap.elems S := by rw [← r3]; exact List.mem_map.2 ⟨x, hx, rfl⟩
            simpa using this
          have hk := (hkeys _ _).1 g1
          obtain ⟨k, hk', hh⟩ := (hin r hr x.1).1 (r2 hd)
          rw [hk] at hk'
          cases hk'
          exact ⟨x.2.1, List.mem_of_getElem? hk, hh, rfl, g2⟩
        · intro c
          rw [l3]
          constructor
          · rintro ⟨-, d, hd, hc⟩
            obtain ⟨k, hk, hv⟩ := (hin r hr d).1 hd
            obtain ⟨k', hk', hc'⟩ := (hcov c d).1 hc
            rw [hk] at hk'; cases hk'
            exact ⟨k, List.mem_of_getElem? hk, hv, hc'⟩
          · rintro ⟨k, hk, hv, hc⟩
            obtain ⟨d, hd⟩ := List.getElem?_of_mem hk
            refine ⟨(hcl c).2 ?_, d, (hin r hr d).2 ⟨k, hd, hv⟩, (hcov c d).2 ⟨k, hd, hc⟩⟩
            obtain ⟨fl, x, h, -⟩ := hc
            exact ⟨fl, x, h⟩
        · intro x hx
          obtain ⟨⟨D, d1, d2⟩, l6⟩ := l5 x hx
          refine ⟨?_, ranked_near w.rd f.data hwf hfeat r hr 40 x.1 x.2.2 l6⟩
          rw [d2]
          exact similarity_share _ _ _ _ _ _ (hin r hr) (fun d => (d1 d).trans (hcov x.1 d))
      · intro hnone
        refine hover p (some r.fid) p1 (p3 (hempty.2 hnone)) ?_
        rintro x ⟨⟩
        exact hempty.2 hnone

end Hyperreal.Props
