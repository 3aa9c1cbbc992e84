import Verif.Props.Serve
import Verif.Props.PipelineSx
import Verif.Props.SxPage

/-!
# From documents to web pages

Index, model and serve, for any corpus whose documents can be indexed and rendered, then for text files and Stack Exchange dumps.
-/

namespace Hyperreal.Props
open Atomic Spec Cli Migrate Web Serve
open Spec.Page (Unmarking Finished nodes postNodes)

variable {int : String → Option Int} {σ : Type} [LinearOrder σ]

theorem ranked_nodup {rd : Rat → σ} {db : DB} {Q : Bitmap} {k : Nat} {c : Int} {rs : List (Nat × String × Val × σ)}
    (h : Ranked rd db Q k c rs) : (rs.map (·.1)).Nodup := by
  obtain ⟨L, hL, hp⟩ := h.best
  have h3 : (rs.map (fun r => toLex (r.2.2.2, (r.1 : Int)))).Nodup :=
    hp.nodup_iff.2 (hL.descending.imp (fun h => ne_of_gt h))
  refine List.Nodup.map_on ?_ (List.Nodup.of_map _ h3)
  intro x hx y hy hxy
  have key : ∀ r ∈ rs, (toLex (r.2.2.2, (r.1 : Int)) : σ ×ₗ Int) = toLex (similarity rd Q (db.docsOf r.1), (r.1 : Int)) := by
    intro r hr
    obtain ⟨f', -, -, e⟩ := hL.members _ (hp.mem_iff.1 (List.mem_map.2 ⟨r, hr, rfl⟩))
    have e2 : (r.1 : Int) = (f' : Int) := congrArg (fun z => (ofLex z).2) e
    have : r.1 = f' := by exact_mod_cast e2
    rw [this] at e ⊢
    exact e
  refine List.inj_on_of_nodup_map h3 hx hy ?_
  rw [key x hx, key y hy, hxy]

/-- A ranking that may list all features of a cluster lists those that share a document with the query. -/
theorem ranked_all {rd : Rat → σ} {db : DB} (hw : Wellformed db) {Q : Bitmap} {c : Int} {rs : List (Nat × String × Val × σ)}
    (h : Ranked rd db Q (featuresIn db c).length c rs) (f : Nat) :
    f ∈ rs.map (·.1) ↔ assign db f = some c ∧ (Q ∩ db.docsOf f).Nonempty := by
  obtain ⟨L, hL, hp⟩ := h.best
  have hmem : ∀ f : Nat, f ∈ rs.map (·.1) ↔ ∃ x ∈ L, (ofLex x).2 = (f : Int) := by
    intro f
    constructor
    · intro hf
      obtain ⟨r, hr, rfl⟩ := List.mem_map.1 hf
      exact ⟨_, hp.mem_iff.1 (List.mem_map.2 ⟨r, hr, rfl⟩), rfl⟩
    · rintro ⟨x, hx, he⟩
      obtain ⟨r, hr, rfl⟩ := List.mem_map.1 (hp.mem_iff.2 hx)
      have he : (r.1 : Int) = f := he
      exact List.mem_map.2 ⟨r, hr, by exact_mod_cast he⟩
  have hsound : ∀ f : Nat, f ∈ rs.map (·.1) → assign db f = some c ∧ (Q ∩ db.docsOf f).Nonempty := by
    intro f hf
    obtain ⟨x, hx, he⟩ := (hmem f).1 hf
    obtain ⟨f', h1, h2, rfl⟩ := hL.members x hx
    have he : (f' : Int) = f := he
    have : f' = f := by exact_mod_cast he
    subst this
    exact ⟨h1, h2⟩
  refine ⟨hsound f, fun ⟨h1, h2⟩ => ?_⟩
  by_contra hn
  obtain ⟨hlen, -⟩ := hL.best (toLex (similarity rd Q (db.docsOf f), (f : Int))) ⟨f, h1, h2, rfl⟩
    (fun hx => hn ((hmem f).2 ⟨_, hx, rfl⟩))
  have hnd : (rs.map (·.1)).Nodup := ranked_nodup h
  have hlt : (f :: rs.map (·.1)).length ≤ (featuresIn db c).length := by
    refine List.Subperm.length_le (List.Nodup.subperm (List.nodup_cons.2 ⟨hn, hnd⟩) ?_)
    intro x hx
    rw [mem_featuresIn hw]
    rcases List.mem_cons.1 hx with rfl | hx
    · exact h1
    · exact (hsound x hx).1
  have := hp.length_eq
  simp only [List.length_cons, List.length_map] at hlt this
  omega

/-- A cluster page with a corpus that renders its documents: it can be shown, with a sample of the documents it is about. -/
theorem cluster_page_documents (w : Web σ) (hw : FairWeb w) (hs : Settled w.db) (hsize : ∀ c, (featuresIn w.db c).length ≤ 2 ^ 62)
    (corpus : Corpus) (render : List Val → Except Err (List (Val × String))) (hcorpus : w.corpus = some (corpus, some render))
    (hp : Draws w.pick) (shown : Val → String)
    (hkeys : ∀ d d' k, (d, k) ∈ w.db.docKeys → (d', k) ∈ w.db.docKeys → d = d')
    (hr : ∀ ks, (∀ k ∈ ks, ∃ d, (d, k) ∈ w.db.docKeys) → render ks = .ok (ks.map (fun k => (k, shown k))))
    (hcov : ∀ c d, CoveredBy w.db c d → ∃ k, (d, k) ∈ w.db.docKeys)
    (c : Int) (hc : hasCluster w.db c) (f : Option Nat) (g : Option Int) (hg : ∀ x, g = some x → hasCluster w.db x) (n : Nat)
    (t : Option String) (ht : t ≠ some "passage" ∧ t ≠ some "concordance") :
    ∃ p rs S, clusterPage w c f g n t = .ok p ∧ p.results = .documents rs ∧ (∀ d ∈ S, OnPage w.db c f g d) ∧
      rs.map (·.1) = Bitmap.elems S ∧ S.card = min n p.total ∧
      ∀ x ∈ rs, (x.1, x.2.1) ∈ w.db.docKeys ∧ x.2.2 = shown x.2.1 := by
  obtain ⟨Q, sh, hQ, -, he⟩ := clusterPage_eq hw hs hsize hc hg f n t
  obtain ⟨rs, S, h1, h2, h3, -, h5, h6⟩ := render_docs_html_keys w.pick hp render shown w.db hkeys hr Q
    (fun d hd => hcov c d ((hQ d).1 hd).1) (some (n : Int)) (by rintro k ⟨⟩; omega)
  have htype : resultType t ≠ "passage" ∧ resultType t ≠ "concordance" := by
    unfold resultType
    cases t with
    | none => decide
    | some t =>
      dsimp only
      split
      · decide
      · exact ⟨fun e => ht.1 (by rw [e]), fun e => ht.2 (by rw [e])⟩
  have hres : ∀ F C, searchResults w (resultType t) Q F C n = .ok (.documents rs) := by
    intro F C
    unfold searchResults
    rw [hcorpus]
    dsimp only
    rw [if_neg htype.2, if_neg htype.1]
    unfold viewDocuments
    dsimp only
    rw [h1]
    rfl
  rw [hres] at he
  refine ⟨_, rs, S, he, rfl, fun d hd => (hQ d).1 (h2 hd), h3, ?_, h6⟩
  have := h5 n rfl
  show S.card = min n Q.card
  omega

/-- The overview, with any corpus: all clusters. -/
theorem overview_shown (w : Web σ) (hw : FairWeb w) (hs : Settled w.db) (hsize : ∀ c, (featuresIn w.db c).length ≤ 2 ^ 62)
    (hne : w.db.clusters ≠ []) :
    ∃ p L, Goal.page w (.overview none none) = .index p ∧ p.clusters = .plain L ∧
      (L.map (·.1)).Perm (w.db.clusters.map (·.cid)) ∧ p.results = .nothing := by
  have hne' : clusterIds w.db ≠ [] := fun h => hne (by
    have := (clusterIds_perm w.db).symm
    rw [h] at this
    simpa using this.eq_nil)
  have hok : ∃ p, indexPage w none none 5 40 none = .ok (some p) ∧ p.results = .nothing := by
    unfold indexPage
    rw [if_neg hne']
    exact ⟨_, rfl, rfl⟩
  obtain ⟨p, hp, hnone⟩ := hok
  obtain ⟨-, h2⟩ := index_page_spec w hw hs hsize none none 5 40 (by decide) none _ hp
  obtain ⟨Q, hQ, -, h3, -⟩ := h2 p rfl
  obtain ⟨L, l1, l2, -⟩ := h3 (by
    rw [Finset.eq_empty_iff_forall_notMem]
    intro d hd
    rcases (hQ d).1 hd with ⟨x, hx, -⟩ | ⟨-, x, hx, -⟩ <;> cases hx)
  refine ⟨p, L, ?_, l1, l2, hnone⟩
  unfold Goal.page
  dsimp only
  rw [hp]

theorem clusterPage_type {w : Web σ} {c : Int} {f : Option Nat} {g : Option Int} {n : Nat} {p : ClusterPage σ}
    (h : clusterPage w c f g n none = .ok p) : p.type = "document" := by
  unfold clusterPage at h
  by_cases hc : c ∈ clusterIds w.db
  · simp only [hc, not_true_eq_false, if_false] at h
    obtain ⟨_, -, h⟩ := bind_ok' h
    obtain ⟨_, -, h⟩ := bind_ok' h
    obtain ⟨_, -, h⟩ := bind_ok' h
    obtain ⟨_, -, h⟩ := bind_ok' h
    obtain ⟨_, -, h⟩ := bind_ok' h
    obtain ⟨r, hr, h⟩ := bind_ok' h
    cases h
    rfl
  · simp only [hc, not_false_eq_true, if_true] at h
    cases h

/-- Serving an index file that describes the documents of a corpus, with a corpus that renders them; the model may be older. -/
theorem described_later {corpus : Corpus} {content : Val → Features} (hint : ReadsNumbers int) (hnd : corpus.keys.Nodup)
    (f : File) (hf : Servable f) (hcur : Current f)
    (hfeat : ∀ r ∈ f.data.features, ∀ d, d ∈ r.docs ↔ ∃ k, corpus.keys[d]? = some k ∧ HasValue content k r.field r.value)
    (hkeys : ∀ d k, (d, k) ∈ f.data.docKeys ↔ corpus.keys[d]? = some k)
    (hsize : ∀ c, (featuresIn f.data c).length ≤ 2 ^ 62)
    (backing : Corpus) (render : List Val → Except Err (List (Val × String))) (shown : Val → String)
    (hrender : ∀ ks, (∀ k ∈ ks, k ∈ corpus.keys) → render ks = .ok (ks.map (fun k => (k, shown k))))
    (v : Visit σ) (hw : FairWeb v.web) (hp : Draws v.web.pick) :
    let get := fun url => follow int (.ok (some (backing, some render))) f { v with request := .get url }
    (∀ url n, (get url n).1.data = f.data) ∧
    ((∃ c fl x, ValueIn f.data fl x c) → ∃ p L, (get "/index/0" 2).2 = .index p ∧ p.clusters = .plain L ∧ (L.map (·.1)).Nodup ∧
      ∀ c, c ∈ L.map (·.1) ↔ ∃ fl x, ValueIn f.data fl x c) ∧
    ∀ c, (∃ fl x, ValueIn f.data fl x c) → ∃ p, (get ("/index/0/cluster/" ++ toString c) 1).2 = .cluster p ∧
      IsLaterPage (HasValue content) corpus.keys id shown f.data c 30 p ∧ (p.total ≠ 0 → ∃ rs, p.features = .ranked rs) := by
  classical
  intro get
  obtain ⟨b, o1, o2, o3, o4, o5, -⟩ := servable_opens f hf
  have hdata := o5 hcur
  have hset : Settled f.data := by rw [← hdata]; exact o3
  have hwf := hset.toWellformed
  set w : Web σ := v.on (some (backing, some render)) f.data with hwdef
  have hfw : FairWeb w := ⟨hw.mono, hw.pos, hw.visitC, hw.visit, hw.visitT, hw.arrange, hw.workers, hw.completed⟩
  have hget : ∀ url n, (get url n).2 = browse int v.luck v.fault w n (.get url) := by
    intro url n
    have := (follow_reads (int := int) (some (backing, some render)) f hf { v with request := .get url } rfl n).2
    rw [hdata] at this
    exact this
  have hzero : int "0" = some 0 := hint 0
  have hpath : PathPart "0" := by decide +kernel
  have hknown : ∀ fid c, assign f.data fid = some c → ∃ r ∈ f.data.features, r.fid = fid := by
    intro fid c h
    obtain ⟨r, hr, e1, e2⟩ := (assign_some_iff hwf fid c).1 h
    obtain ⟨x, hx, e⟩ := hwf.knownFeature r hr
    exact ⟨x, hx, e.1.trans e1⟩
  have hdocs : ∀ r ∈ f.data.features, f.data.docsOf r.fid = r.docs := fun r hr => by
    rw [DB.docsOf, (feature?_eq_some hwf r.fid r).2 ⟨hr, rfl⟩]
  have hcl : ∀ c, hasCluster f.data c ↔ ∃ fl x, ValueIn f.data fl x c := by
    intro c
    constructor
    · rintro ⟨k, hk, rfl⟩
      obtain ⟨r, hr, e⟩ := (hset.summaries k hk).nonempty
      obtain ⟨x, hx, e'⟩ := hwf.knownFeature r hr
      exact ⟨_, _, x, hx, rfl, rfl, (assign_some_iff hwf _ _).2 ⟨r, hr, e'.1.symm, e⟩⟩
    · rintro ⟨fl, x, r, hr, -, -, h⟩
      obtain ⟨y, hy, e1, e2⟩ := (assign_some_iff hwf _ _).1 h
      obtain ⟨k, hk, e⟩ := hwf.knownCluster y hy
      exact ⟨k, hk, e.trans e2⟩
  have hcov : ∀ c d, CoveredBy f.data c d ↔
      ∃ k, corpus.keys[d]? = some k ∧ ∃ fl x, HasValue content k fl x ∧ ValueIn f.data fl x c := by
    intro c d
    constructor
    · rintro ⟨fid, h1, h2⟩
      obtain ⟨r, hr, rfl⟩ := hknown fid c h1
      rw [hdocs r hr] at h2
      obtain ⟨k, hk, hv⟩ := (hfeat r hr d).1 h2
      exact ⟨k, hk, _, _, hv, r, hr, rfl, rfl, h1⟩
    · rintro ⟨k, hk, fl, x, hv, r, hr, rfl, rfl, h1⟩
      refine ⟨r.fid, h1, ?_⟩
      rw [hdocs r hr]
      exact (hfeat r hr d).2 ⟨k, hk, hv⟩
  refine ⟨?_, ?_, ?_⟩
  · intro url n
    rcases (follow_reads (int := int) (some (backing, some render)) f hf { v with request := .get url } rfl n).1 with h | h
    · exact congrArg File.data h
    · exact (congrArg File.data h).trans hdata
  · rintro ⟨c, hc⟩
    obtain ⟨k, hk, -⟩ := (hcl c).2 hc
    obtain ⟨p, L, h1, h2, h3, -⟩ := overview_shown w hfw hset hsize (List.ne_nil_of_mem hk)
    refine ⟨p, L, ?_, h2, ?_, ?_⟩
    · rw [hget, ← h1]
      exact goal_overview hint hzero hpath none none (.inl rfl) (shape_index hpath) 0
    · exact h3.nodup_iff.2 hwf.clusterIds
    · intro c
      rw [h3.mem_iff, ← hcl]
      simp [hasCluster, w, Visit.on]
  · intro c hc
    have hc' := (hcl c).2 hc
    obtain ⟨p, rs, S, h1, h2, h3, h4, h5, h6⟩ := cluster_page_documents w hfw hset hsize backing render rfl hp shown
      (by
        intro d d' k h h'
        have e1 := (hkeys d k).1 h
        have e2 := (hkeys d' k).1 h'
        obtain ⟨l1, g1⟩ := List.getElem?_eq_some_iff.1 e1
        obtain ⟨l2, g2⟩ := List.getElem?_eq_some_iff.1 e2
        exact (List.Nodup.getElem_inj_iff hnd).1 (g1.trans g2.symm))
      (by
        intro ks hks
        refine hrender ks (fun k hk => ?_)
        obtain ⟨d, hd⟩ := hks k hk
        exact List.mem_of_getElem? ((hkeys d k).1 hd))
      (by
        intro c d hd
        obtain ⟨k, hk, -⟩ := (hcov c d).1 hd
        exact ⟨k, (hkeys d k).2 hk⟩)
      c hc' none none (by simp) 30 none (by simp)
    obtain ⟨e1, Q, hQ, e2, e3, -⟩ := (cluster_page_spec w hfw hset hsize c none none 30 none).1 p h1
    have hQ' : ∀ d, d ∈ Q ↔ ∃ k, corpus.keys[d]? = some k ∧ ∃ fl x, HasValue content k fl x ∧ ValueIn f.data fl x c := by
      intro d
      rw [hQ, ← hcov]
      simp [OnPage, w, Visit.on]
    have htot : p.total = 0 ↔ Q = ∅ := by rw [e2, Finset.card_eq_zero]
    have hsub : ∀ r ∈ f.data.features, assign f.data r.fid = some c →
        ((Q ∩ f.data.docsOf r.fid).Nonempty ↔ ∃ k ∈ corpus.keys, HasValue content k r.field r.value) := by
      intro r hr ha
      rw [hdocs r hr]
      constructor
      · rintro ⟨d, hd⟩
        obtain ⟨k, hk, hv⟩ := (hfeat r hr d).1 (Finset.mem_inter.1 hd).2
        exact ⟨k, List.mem_of_getElem? hk, hv⟩
      · rintro ⟨k, hk, hv⟩
        obtain ⟨d, hd⟩ := List.getElem?_of_mem hk
        exact ⟨d, Finset.mem_inter.2 ⟨(hQ' d).2 ⟨k, hd, _, _, hv, r, hr, rfl, rfl, ha⟩, (hfeat r hr d).2 ⟨k, hd, hv⟩⟩⟩
    refine ⟨p, ?_, ⟨e1, ?_, clusterPage_type h1, ?_, ?_⟩, ?_⟩
    · have hgo : browse int v.luck v.fault w 1 (.get ("/index/0/cluster/" ++ toString c)) = Goal.page w (.cluster c none none) :=
        goal_cluster hint hzero c none none (.inl rfl) (shape_cluster hpath c) 0
      rw [hget, hgo]
      unfold Goal.page
      dsimp only
      rw [h1]
    · have nodup_of : ∀ {β : Type} (L : List β) (fid : β → Nat) (name : β → String × Val), (L.map fid).Nodup →
          (∀ x ∈ L, ∃ r ∈ f.data.features, r.fid = fid x ∧ (r.field, r.value) = name x) → (L.map name).Nodup := by
        intro β L fid name hids hname
        refine List.Nodup.map_on ?_ (List.Nodup.of_map _ hids)
        intro x hx y hy hxy
        obtain ⟨a, ha, a1, a2⟩ := hname x hx
        obtain ⟨b, hb, b1, b2⟩ := hname y hy
        have : a = b := List.inj_on_of_nodup_map hwf.featureKeys ha hb (by
          show (a.field, a.value) = (b.field, b.value)
          rw [a2, b2, hxy])
        exact List.inj_on_of_nodup_map hids hx hy (by rw [← a1, ← b1, this])
      have mem_of : ∀ {β : Type} (L : List β) (fid : β → Nat) (name : β → String × Val) (P : FeatRow → Prop),
          (∀ x ∈ L, ∃ r ∈ f.data.features, r.fid = fid x ∧ (r.field, r.value) = name x) →
          (∀ r ∈ f.data.features, r.fid ∈ L.map fid ↔ assign f.data r.fid = some c ∧ P r) →
          ∀ fl x, (fl, x) ∈ L.map name ↔ ∃ r ∈ f.data.features, r.field = fl ∧ r.value = x ∧ assign f.data r.fid = some c ∧ P r := by
        intro β L fid name P hname hmem fl x
        constructor
        · intro h
          obtain ⟨y, hy, e⟩ := List.mem_map.1 h
          obtain ⟨a, ha, a1, a2⟩ := hname y hy
          have a3 := a2.trans e
          simp only [Prod.mk.injEq] at a3
          exact ⟨a, ha, a3.1, a3.2, (hmem a ha).1 (by rw [a1]; exact List.mem_map.2 ⟨y, hy, rfl⟩)⟩
        · rintro ⟨a, ha, rfl, rfl, h⟩
          obtain ⟨y, hy, e⟩ := List.mem_map.1 ((hmem a ha).2 h)
          obtain ⟨a', ha', a1, a2⟩ := hname y hy
          have : a' = a := List.inj_on_of_nodup_map hwf.featureIds ha' ha (a1.trans e)
          subst this
          exact List.mem_map.2 ⟨y, hy, a2.symm⟩
      rcases e3 with ⟨h0, listed, hl, hr⟩ | ⟨h0, listed, hl, hr, hnm⟩
      · have hall := ranked_all hwf hr
        have hname : ∀ x ∈ listed, ∃ r ∈ f.data.features, r.fid = x.1 ∧ (r.field, r.value) = (x.2.1, x.2.2.1) := by
          intro x hx
          obtain ⟨r, hr', a1, a2, a3⟩ := hr.named x hx
          exact ⟨r, hr', a1, by rw [a2, a3]⟩
        rw [hl]
        refine ⟨nodup_of listed (·.1) _ (ranked_nodup hr) hname, fun fl x => ?_⟩
        show (fl, x) ∈ listed.map _ ↔ _
        rw [mem_of listed (·.1) _ (fun r => ∃ k ∈ corpus.keys, HasValue content k r.field r.value) hname (fun r hr' => by
          rw [hall r.fid]
          exact and_congr_right (fun h => hsub r hr' h))]
        constructor
        · rintro ⟨r, hr', rfl, rfl, h1, h2⟩
          exact ⟨⟨r, hr', rfl, rfl, h1⟩, .inr h2⟩
        · rintro ⟨⟨r, hr', rfl, rfl, h1⟩, h2⟩
          exact ⟨r, hr', rfl, rfl, h1, h2.resolve_left (fun h => h0 (htot.1 h))⟩
      · have hname : ∀ x ∈ listed, ∃ r ∈ f.data.features, r.fid = x.fid ∧ (r.field, r.value) = (x.field, x.value) := by
          intro x hx
          obtain ⟨r, hr', a1, a2, a3⟩ := hnm x hx
          exact ⟨r, hr', a1, by rw [a2, a3]⟩
        have hfull : ∀ fid, fid ∈ listed.map (·.fid) ↔ assign f.data fid = some c := by
          intro fid
          have hsubl : listed.map (·.fid) ⊆ featuresIn f.data c := by
            intro y hy
            obtain ⟨x, hx, rfl⟩ := List.mem_map.1 hy
            exact (mem_featuresIn hwf c _).2 (hr.inCluster x hx)
          have hlen : (listed.map (·.fid)).length = (featuresIn f.data c).length := by
            rw [List.length_map, hr.size]
            exact Nat.min_eq_right (hsize c)
          have := (List.subperm_of_subset hr.once hsubl).perm_of_length_le hlen.ge
          rw [this.mem_iff, mem_featuresIn hwf]
        rw [hl]
        refine ⟨nodup_of listed (·.fid) _ hr.once hname, fun fl x => ?_⟩
        show (fl, x) ∈ listed.map _ ↔ _
        rw [mem_of listed (·.fid) _ (fun _ => True) hname (fun r hr' => by rw [hfull]; simp)]
        constructor
        · rintro ⟨r, hr', rfl, rfl, h1, -⟩
          exact ⟨⟨r, hr', rfl, rfl, h1⟩, .inl (htot.2 h0)⟩
        · rintro ⟨⟨r, hr', rfl, rfl, h1⟩, -⟩
          exact ⟨r, hr', rfl, rfl, h1, trivial⟩
    · rw [e2]
      exact card_howMany _ _ _ hQ'
    · have hlen : rs.length = S.card := by
        have := congrArg List.length h4
        rw [List.length_map] at this
        rw [this, Bitmap.elems_length]
      have hndr : (rs.map (·.2.1)).Nodup := by
        have h7 : (rs.map (·.1)).Nodup := by rw [h4]; exact Bitmap.elems_nodup S
        refine List.Nodup.map_on ?_ (List.Nodup.of_map _ h7)
        intro x hx y hy hxy
        have g1 := (hkeys _ _).1 (h6 x hx).1
        have g2 := (hkeys _ _).1 (h6 y hy).1
        rw [← hxy] at g2
        obtain ⟨l1, g1⟩ := List.getElem?_eq_some_iff.1 g1
        obtain ⟨l2, g2⟩ := List.getElem?_eq_some_iff.1 g2
        have := (List.Nodup.getElem_inj_iff hnd).1 (g1.trans g2.symm)
        exact List.inj_on_of_nodup_map h7 hx hy this
      refine ⟨rs, h2, by rw [hlen, h5], hndr, ?_⟩
      intro r hr
      obtain ⟨g1, g2⟩ := h6 r hr
      have hd : r.1 ∈ S := by
        have : r.1 ∈ Bitmap.elems S := by rw [← h4]; exact List.mem_map.2 ⟨r, hr, rfl⟩
        simpa using this
      have hk := (hkeys _ _).1 g1
      have : CoveredBy f.data c r.1 := (h3 r.1 hd).1
      obtain ⟨k, hk', hh⟩ := (hcov c r.1).1 this
      rw [hk] at hk'
      cases hk'
      exact ⟨r.2.1, List.mem_of_getElem? hk, hh, rfl, g2⟩
    · intro h0
      rcases e3 with ⟨-, listed, hl, -⟩ | ⟨h1, -⟩
      · exact ⟨listed, hl⟩
      · exact absurd (htot.2 h1) h0

/-- Serving an index file that describes the documents of a corpus, with a corpus that renders them; every value of the model
occurs. -/
theorem described_served {corpus : Corpus} {content : Val → Features} (hint : ReadsNumbers int) (hnd : corpus.keys.Nodup)
    (f : File) (hf : Servable f) (hcur : Current f)
    (hfeat : ∀ r ∈ f.data.features, ∀ d, d ∈ r.docs ↔ ∃ k, corpus.keys[d]? = some k ∧ HasValue content k r.field r.value)
    (hkeys : ∀ d k, (d, k) ∈ f.data.docKeys ↔ corpus.keys[d]? = some k)
    (hocc : ∀ r ∈ f.data.features, (assign f.data r.fid).isSome → r.docs.Nonempty)
    (hsize : ∀ c, (featuresIn f.data c).length ≤ 2 ^ 62)
    (backing : Corpus) (render : List Val → Except Err (List (Val × String))) (shown : Val → String)
    (hrender : ∀ ks, (∀ k ∈ ks, k ∈ corpus.keys) → render ks = .ok (ks.map (fun k => (k, shown k))))
    (v : Visit σ) (hw : FairWeb v.web) (hp : Draws v.web.pick) :
    let get := fun url => follow int (.ok (some (backing, some render))) f { v with request := .get url }
    (∀ url n, (get url n).1.data = f.data) ∧
    ((∃ c fl x, ValueIn f.data fl x c) → ∃ p L, (get "/index/0" 2).2 = .index p ∧ p.clusters = .plain L ∧ (L.map (·.1)).Nodup ∧
      ∀ c, c ∈ L.map (·.1) ↔ ∃ fl x, ValueIn f.data fl x c) ∧
    ∀ c, (∃ fl x, ValueIn f.data fl x c) → ∃ p, (get ("/index/0/cluster/" ++ toString c) 1).2 = .cluster p ∧
      IsClusterPage (HasValue content) corpus.keys id shown f.data c 30 p := by
  intro get
  obtain ⟨h1, h2, h3⟩ := described_later (int := int) hint hnd f hf hcur hfeat hkeys hsize backing render shown hrender v hw hp
  refine ⟨h1, h2, fun c hc => ?_⟩
  obtain ⟨p, p1, p2, p3⟩ := h3 c hc
  have hsome : ∀ fl x, ValueIn f.data fl x c → ∃ k ∈ corpus.keys, HasValue content k fl x := by
    rintro fl x ⟨r, hr, rfl, rfl, ha⟩
    obtain ⟨d, hd⟩ := hocc r hr (by rw [ha]; rfl)
    obtain ⟨k, hk, hv⟩ := (hfeat r hr d).1 hd
    exact ⟨k, List.mem_of_getElem? hk, hv⟩
  have ht : p.total ≠ 0 := by
    obtain ⟨fl, x, hv⟩ := hc
    obtain ⟨k, hk, hv'⟩ := hsome fl x hv
    rw [p2.total, howMany, ← Nat.pos_iff_ne_zero, List.countP_pos_iff]
    exact ⟨k, hk, by simpa using ⟨fl, x, hv', hv⟩⟩
  obtain ⟨rs, hrs⟩ := p3 ht
  obtain ⟨v1, v2⟩ := p2.values
  rw [hrs] at v1 v2
  refine ⟨p, p1, p2.cluster, ⟨rs, hrs, v1, fun fl x => ?_⟩, p2.kind, p2.total, p2.documents⟩
  exact (v2 fl x).trans ⟨fun h => h.1, fun h => ⟨h, .inr (hsome fl x h)⟩⟩

/-- A model of values from a vocabulary is no larger than the vocabulary. -/
theorem model_size {corpus : Corpus} {content : Val → Features} (db : DB) (hset : Settled db) (m : Nat) (hm : 1 ≤ m)
    (hfeat : ∀ r ∈ db.features, ∀ d, d ∈ r.docs ↔ ∃ k, corpus.keys[d]? = some k ∧ HasValue content k r.field r.value)
    (hin : ∀ fid, (assign db fid).isSome → ∃ x ∈ db.features, x.fid = fid ∧ m ≤ x.docsCount)
    (vocabulary : List (String × Val)) (hvoc : ∀ k ∈ corpus.keys, ∀ fl v, HasValue content k fl v → (fl, v) ∈ vocabulary) (c : Int) :
    (featuresIn db c).length ≤ vocabulary.length := by
  have hw := hset.toWellformed
  have hg : ∀ fid ∈ featuresIn db c, ∃ r ∈ db.features, r.fid = fid ∧ r.docs.Nonempty := by
    intro fid hfid
    rw [mem_featuresIn hw] at hfid
    obtain ⟨r, hr, e, h⟩ := hin fid (by rw [hfid]; rfl)
    rw [hset.counts r hr] at h
    exact ⟨r, hr, e, Finset.card_pos.1 (by omega)⟩
  let g : Nat → String × Val := fun fid => ((db.features.find? (fun r => r.fid = fid)).map (fun r => (r.field, r.value))).getD ("", .int 0)
  have hgr : ∀ r ∈ db.features, g r.fid = (r.field, r.value) := by
    intro r hr
    have : db.features.find? (fun x => x.fid = r.fid) = some r := by
      have := (feature?_eq_some hw r.fid r).2 ⟨hr, rfl⟩
      rwa [DB.feature?] at this
    simp only [g, this, Option.map_some, Option.getD_some]
  have hnd : ((featuresIn db c).map g).Nodup := by
    refine (featuresIn_nodup hw c).map_on ?_
    intro a ha b' hb' hab
    obtain ⟨ra, hra, rfl, -⟩ := hg a ha
    obtain ⟨rb, hrb, rfl, -⟩ := hg b' hb'
    rw [hgr ra hra, hgr rb hrb] at hab
    rw [List.inj_on_of_nodup_map hset.featureKeys hra hrb hab]
  have hsub : (featuresIn db c).map g ⊆ vocabulary := by
    intro v hv'
    obtain ⟨fid, hfid, rfl⟩ := List.mem_map.1 hv'
    obtain ⟨r, hr, rfl, d, hd⟩ := hg fid hfid
    obtain ⟨k, hk1, hk2⟩ := (hfeat r hr d).1 hd
    rw [hgr r hr]
    exact hvoc k (List.mem_of_getElem? hk1) _ _ hk2
  have := (hnd.subperm hsub).length_le
  rwa [List.length_map] at this

/-- Index, model and serve on any corpus. -/
theorem any_served {corpus : Corpus} {content : Val → Features} (hs : Serves corpus content) (cfg : IndexCfg)
    (hi : Indexable corpus content cfg.positions)
    (hne : corpus.keys ≠ []) (s : Schedule) (hf : Fair s) (hno : ∀ i, s.fault i = none) (f : File) (hu : Usable f)
    (vocabulary : List (String × Val)) (hvoc : ∀ k ∈ corpus.keys, ∀ fl v, HasValue content k fl v → (fl, v) ∈ vocabulary)
    (hsize : vocabulary.length ≤ 2 ^ 62)
    (luck : Luck Rat) (hscore : luck.score = exactScorer luck.chance) (hshuffle : ∀ l, (luck.shuffle l).Perm l)
    (args : ModelArgs) (confirm : Bool) (hm : f.data.clusters = [] ∨ (args.restart = true ∧ confirm = true))
    (hn : ∀ k, args.clusters = some k → 0 ≤ k) (hit : 1 ≤ args.iterations) (hk : 1 ≤ args.groupTopK) (hmin : 1 ≤ args.minDocs)
    (hfields : args.fields.Nodup)
    (hint : ReadsNumbers int) (backing : Corpus) (render : List Val → Except Err (List (Val × String))) (shown : Val → String)
    (hrender : ∀ ks, (∀ k ∈ ks, k ∈ corpus.keys) → render ks = .ok (ks.map (fun k => (k, shown k))))
    (v : Visit σ) (hw : FairWeb v.web) (hp : Draws v.web.pick) :
    let indexed := Pipeline.onIndex f (indexCall corpus cfg s)
    let modelled := Pipeline.model luck args confirm indexed.1
    let connect : Except Err (Option Backing) := .ok (some (backing, some render))
    let get := fun url => follow int connect modelled.1 { v with request := .get url }
    indexed.2 = .ok () ∧ modelled.2 = .done ∧ Servable modelled.1 ∧ Current modelled.1 ∧
    (∀ fl x, (∃ c, ValueIn modelled.1.data fl x c) ↔
      args.minDocs ≤ howMany (fun k => HasValue content k fl x) corpus.keys ∧ (args.fields = [] ∨ fl ∈ args.fields)) ∧
    (∀ url n, (get url n).1.data = modelled.1.data) ∧
    ((∃ c fl x, ValueIn modelled.1.data fl x c) → ∃ p L, (get "/index/0" 2).2 = .index p ∧ p.clusters = .plain L ∧
      (L.map (·.1)).Nodup ∧ ∀ c, c ∈ L.map (·.1) ↔ ∃ fl x, ValueIn modelled.1.data fl x c) ∧
    ∀ c, (∃ fl x, ValueIn modelled.1.data fl x c) → ∃ p, (get ("/index/0/cluster/" ++ toString c) 1).2 = .cluster p ∧
      IsClusterPage (HasValue content) corpus.keys id shown modelled.1.data c 30 p := by
  intro indexed modelled connect get
  obtain ⟨hind, hmod, hu2, hid, o2, i3, i4, i5, chosen, ch, o4, -⟩ := any_modelled hs cfg hi hne s hf hno f hu
    luck hscore hshuffle args confirm hm hn hit hk hfields
  have hcur : Current modelled.1 := by
    rcases hu2 with ⟨h1, h2, h3⟩ | ⟨h1, -⟩
    · exfalso
      have hid' := hid
      -- a new file has no documents
      obtain ⟨k, hk0⟩ := List.exists_mem_of_ne_nil _ hne
      obtain ⟨d, hd⟩ := List.getElem?_of_mem hk0
      have := (i5 d k).2 hd
      rw [h3] at this
      cases this
    · exact h1
  have hserv : Servable modelled.1 := ⟨hid, .inl ⟨hcur, o2⟩⟩
  have hinj : ∀ x ∈ modelled.1.data.features, ∀ y ∈ modelled.1.data.features, x.fid = y.fid → x = y := fun x hx y hy h =>
    List.inj_on_of_nodup_map o2.featureIds hx hy h
  have hcard : ∀ r ∈ modelled.1.data.features, r.docsCount = howMany (fun k => HasValue content k r.field r.value) corpus.keys :=
    fun r hr => by rw [o2.counts r hr]; exact card_howMany _ _ _ (i3 r hr)
  have hsz := fun c => (model_size modelled.1.data o2 args.minDocs hmin i3 (fun fid h => by
    obtain ⟨x, h1, h2, h3, -⟩ := (o4 fid).1 h
    exact ⟨x, h1, h2, h3⟩) vocabulary hvoc c).trans hsize
  obtain ⟨d1, d2, d3⟩ := described_served (int := int) hint hs.keys modelled.1 hserv hcur i3 i5
    (by
      intro r hr h
      obtain ⟨x, h1, h2, h3, -⟩ := (o4 r.fid).1 h
      rw [hinj x h1 r hr h2, o2.counts r hr] at h3
      exact Finset.card_pos.1 (by omega)) hsz backing render shown hrender v hw hp
  refine ⟨hind, hmod, hserv, hcur, ?_, d1, d2, d3⟩
  intro fl x
  constructor
  · rintro ⟨c, r, hr, rfl, rfl, ha⟩
    obtain ⟨y, h1, h2, h3, h4⟩ := (o4 r.fid).1 (by rw [ha]; rfl)
    rw [hinj y h1 r hr h2] at h3 h4
    rw [hcard r hr] at h3
    exact ⟨h3, (ch r hr).1 h4⟩
  · rintro ⟨h1, h2⟩
    have hpos : ∃ k ∈ corpus.keys, HasValue content k fl x := by
      by_contra hnone
      have : howMany (fun k => HasValue content k fl x) corpus.keys = 0 := by
        classical
        unfold howMany
        rw [List.countP_eq_zero]
        intro k hk0 h
        exact hnone ⟨k, hk0, by simpa using h⟩
      omega
    obtain ⟨k, hk0, hv0⟩ := hpos
    obtain ⟨r, hr, rfl, rfl⟩ := i4 k hk0 fl x hv0
    obtain ⟨c, hc⟩ := Option.isSome_iff_exists.1 ((o4 r.fid).2 ⟨r, hr, rfl, by rw [hcard r hr]; exact h1, (ch r hr).2 h2⟩)
    exact ⟨c, r, hr, rfl, rfl, hc⟩

/-- The page in terms of the documents that the keys stand for. -/
theorem page_of_keys {α : Type} {shows : Val → String → Val → Prop} {shows' : α → String → Val → Prop} {keys : List Val}
    {docs : List α} {key : α → Val} {shown : Val → String} {render : α → String} {db : DB} {c : Int} {n : Nat}
    {p : ClusterPage σ} (hperm : keys.Perm (docs.map key)) (hshows : ∀ d ∈ docs, ∀ fl x, shows (key d) fl x ↔ shows' d fl x)
    (hrender : ∀ d ∈ docs, shown (key d) = render d) (h : IsClusterPage shows keys id shown db c n p) :
    IsClusterPage shows' docs key render db c n p := by
  classical
  obtain ⟨h1, h2, ht, h3, rs, h4, h5, h6, h7⟩ := h
  refine ⟨h1, h2, ht, ?_, rs, h4, h5, h6, ?_⟩
  · rw [h3, howMany_perm _ hperm, howMany, List.countP_map, howMany]
    apply List.countP_congr
    intro d hd
    simp only [Function.comp, decide_eq_true_eq]
    constructor
    · rintro ⟨fl, x, a, b⟩; exact ⟨fl, x, (hshows d hd fl x).1 a, b⟩
    · rintro ⟨fl, x, a, b⟩; exact ⟨fl, x, (hshows d hd fl x).2 a, b⟩
  · intro r hr
    obtain ⟨k, hk, ⟨fl, x, a, b⟩, e1, e2⟩ := h7 r hr
    obtain ⟨d, hd, rfl⟩ := List.mem_map.1 (hperm.mem_iff.1 hk)
    exact ⟨d, hd, ⟨fl, x, (hshows d hd fl x).1 a, b⟩, e1, by rw [e2]; exact hrender d hd⟩

theorem howMany_keys {α : Type} {shows : Val → Prop} {shows' : α → Prop} {keys : List Val} {docs : List α} {key : α → Val}
    (hperm : keys.Perm (docs.map key)) (hshows : ∀ d ∈ docs, (shows (key d) ↔ shows' d)) : howMany shows keys = howMany shows' docs := by
  classical
  rw [howMany_perm _ hperm, howMany, List.countP_map, howMany]
  apply List.countP_congr
  intro d hd
  simp [hshows d hd]

/-- **C80.** From a text file to web pages.  `create` on a file of lines (C57), `index`, `model` (making a new model with
`--min-docs` at least 1) and `serve`: all succeed, the model has the tokens that occur in at least `--min-docs` of the lines
that are not blank, and requests for its pages change nothing.  The overview lists all clusters, each once, and the page of each
cluster is there: it lists the tokens of the cluster, counts the lines that have one of them, and shows 30 of these lines, or
all if there are fewer. -/
theorem text_file_served (space : Char → Bool) (limit : Nat) (ls : List Line) (hls : ∀ l ∈ ls, l.Ok limit)
    (file : List Char) (hfile : file = ls.flatMap Line.render ∨ file ++ ['\n'] = ls.flatMap Line.render)
    (hne : documents space ls ≠ []) (old : PlainText.Db) (f : File) (hu : Usable f)
    (tokens : String → List String) (hsize : ((documents space ls).flatMap tokens).length ≤ 2 ^ 62)
    (cfg : IndexCfg) (s : Schedule) (hf : Fair s) (hno : ∀ i, s.fault i = none)
    (luck : Luck Rat) (hscore : luck.score = exactScorer luck.chance) (hshuffle : ∀ l, (luck.shuffle l).Perm l)
    (args : ModelArgs) (confirm : Bool) (hm : f.data.clusters = [] ∨ (args.restart = true ∧ confirm = true))
    (hn : ∀ k, args.clusters = some k → 0 ≤ k) (hi : 1 ≤ args.iterations) (hk : 1 ≤ args.groupTopK) (hmin : 1 ≤ args.minDocs)
    (hfields : args.fields.Nodup)
    (hint : ReadsNumbers int) (v : Visit σ) (hw : FairWeb v.web) (hp : Draws v.web.pick) :
    let docs := numbered (documents space ls)
    let corpus := Pipeline.create space limit file old
    let indexed := Pipeline.indexPlain tokens cfg s corpus.1 f
    let modelled := Pipeline.model luck args confirm indexed.1
    let get := fun url => follow int (plain tokens corpus.1) modelled.1 { v with request := .get url }
    let shows := fun (d : Nat × String) (field : String) (x : Val) => field = "text" ∧ ∃ t ∈ tokens d.2, x = .text t
    corpus.2 = .ok () ∧ indexed.2 = .ok () ∧ modelled.2 = .done ∧ Servable modelled.1 ∧ Current modelled.1 ∧
    (∀ fl x, (∃ c, ValueIn modelled.1.data fl x c) ↔
      args.minDocs ≤ howMany (fun d => shows d fl x) docs ∧ (args.fields = [] ∨ fl ∈ args.fields)) ∧
    (∀ url n, (get url n).1.data = modelled.1.data) ∧
    ((∃ c fl x, ValueIn modelled.1.data fl x c) → ∃ p L, (get "/index/0" 2).2 = .index p ∧ p.clusters = .plain L ∧
      (L.map (·.1)).Nodup ∧ ∀ c, c ∈ L.map (·.1) ↔ ∃ fl x, ValueIn modelled.1.data fl x c) ∧
    ∀ c, (∃ fl x, ValueIn modelled.1.data fl x c) → ∃ p, (get ("/index/0/cluster/" ++ toString c) 1).2 = .cluster p ∧
      IsClusterPage shows docs (fun d => .int d.1) (·.2) modelled.1.data c 30 p := by
  intro docs corpus indexed modelled get shows
  obtain ⟨c1, c2⟩ := create_reads_partial space limit ls hls file hfile (Conn.fresh old) old ⟨rfl, rfl, rfl, rfl, rfl, rfl⟩
  have hcorpus : corpus = (some docs, .ok ()) := by
    show Pipeline.create space limit file old = _
    unfold Pipeline.create
    cases hx : plaintextCreate space limit (fun _ => none) file (Conn.fresh old) with
    | mk c r =>
      rw [hx] at c1 c2
      dsimp only at c1 c2
      rw [c1]
      dsimp only
      congr 1
      exact c2.committed
  have hnk : (docs.map (·.1)).Nodup := numbered_keys _
  obtain ⟨hs, hind⟩ := plain_text_serves tokens docs hnk
  have hdocs : docs ≠ [] := by
    intro h
    apply hne
    have := congrArg List.length h
    simpa [docs, numbered] using this
  have hdoc : ∀ d ∈ docs, PlainText.docOf (some docs) d.1 = .ok d.2 := fun d hd => PlainText.docOf_unique _ hnk _ hd
  have hkeys : (PlainText.corpus tokens docs).keys = docs.map (fun d => Val.int d.1) := rfl
  have hshows : ∀ d ∈ docs, ∀ fl x, HasValue (plainContent tokens docs) (.int d.1) fl x ↔ shows d fl x := by
    intro d hd fl x
    have : plainContent tokens docs (.int d.1) = PlainText.features tokens d.2 := by
      unfold plainContent PlainText.indexed
      have : PlainText.asKey (Val.int (d.1 : Int)) = some d.1 := rfl
      rw [this]
      dsimp only
      rw [hdoc d hd]
    unfold HasValue
    rw [this]
    constructor
    · rintro ⟨vs, h1, h2⟩
      simp only [PlainText.features, List.mem_singleton, Prod.mk.injEq] at h1
      obtain ⟨rfl, rfl⟩ := h1
      obtain ⟨t, ht, e⟩ := List.mem_map.1 h2
      cases e
      exact ⟨rfl, t, ht, rfl⟩
    · rintro ⟨rfl, t, ht, rfl⟩
      exact ⟨.seq ((tokens d.2).map (fun t => some (Val.text t))), by simp [PlainText.features], List.mem_map.2 ⟨t, ht, rfl⟩⟩
  have hindexed : indexed = Pipeline.onIndex f (indexCall (PlainText.corpus tokens docs) cfg s) := by
    show Pipeline.indexPlain tokens cfg s corpus.1 f = _
    rw [hcorpus]
    rfl
  have hget : ∀ url, get url = follow int (.ok (some (PlainText.corpus tokens docs, some (plainHtml (some docs))))) modelled.1 { v with request := .get url } := by
    intro url
    show follow int (plain tokens corpus.1) modelled.1 _ = _
    rw [hcorpus]
    rfl
  have hone : ∀ k ∈ (PlainText.corpus tokens docs).keys, ∃ d ∈ docs, k = .int d.1 := by
    intro k hk'
    obtain ⟨d, hd, rfl⟩ := List.mem_map.1 hk'
    exact ⟨d, hd, rfl⟩
  let shown : Val → String := fun k => match PlainText.docOf (some docs) ((PlainText.asKey k).getD 0) with
    | .ok t => t
    | .error _ => ""
  have hshown : ∀ d ∈ docs, shown (.int d.1) = d.2 := by
    intro d hd
    show (match PlainText.docOf (some docs) ((some d.1).getD 0) with | .ok t => t | .error _ => "") = _
    rw [Option.getD_some, hdoc d hd]
  obtain ⟨a1, a2, a3, a4, a5, a6, a7, a8⟩ := any_served (int := int) hs cfg (hind _) (by rw [hkeys]; simpa using hdocs) s hf hno f hu
    (((documents space ls).flatMap tokens).map (fun t => ("text", Val.text t))) (by
      intro k hk' fl x hv
      obtain ⟨d, hd, rfl⟩ := hone k hk'
      obtain ⟨rfl, t, ht, rfl⟩ := (hshows d hd fl x).1 hv
      refine List.mem_map.2 ⟨t, List.mem_flatMap.2 ⟨d.2, ?_, ht⟩, rfl⟩
      obtain ⟨i, hi'⟩ := List.getElem?_of_mem hd
      rw [show docs = numbered (documents space ls) from rfl, numbered_get] at hi'
      cases hx : (documents space ls)[i]? with
      | none => rw [hx] at hi'; cases hi'
      | some y =>
        rw [hx] at hi'
        simp only [Option.map_some, Option.some.injEq] at hi'
        rw [← hi']
        exact List.mem_of_getElem? hx) (by simpa using hsize)
    luck hscore hshuffle args confirm hm hn hi hk hmin hfields hint (PlainText.corpus tokens docs) (plainHtml (some docs)) shown (by
      intro ks hks
      unfold plainHtml
      apply mapM_all_ok
      intro k hk'
      obtain ⟨d, hd, rfl⟩ := hone k (hks k hk')
      have : PlainText.asKey (Val.int (d.1 : Int)) = some d.1 := rfl
      rw [this]
      dsimp only
      rw [hdoc d hd, hshown d hd]
      rfl) v hw hp
  rw [← hindexed] at a1 a2 a3 a4 a5 a6 a7 a8
  simp only [hget]
  refine ⟨by rw [hcorpus], a1, a2, a3, a4, ?_, a6, a7, ?_⟩
  · intro fl x
    rw [a5 fl x, hkeys, howMany_keys (.refl _) (fun d hd => hshows d hd fl x)]
  · intro c hc
    obtain ⟨p, p1, p2⟩ := a8 c hc
    rw [hkeys] at p2
    exact ⟨p, p1, page_of_keys (.refl _) hshows hshown p2⟩

/-- What a Stack Exchange corpus made from a dump renders for the `n`th question or answer. -/
theorem dump_rendered (t : SX.TextOps) (d : SX.Dump) (url : String) (hd : Tidy d) (hr : DumpReadable t d) (hne : considered d ≠ [])
    (n : Nat) (r : SX.PostRow) (hn : (considered d)[n]? = some r) :
    ∃ fs, SX.renderedFields (Pipeline.addSite d url {}).1 (n + 1) = .ok fs ∧ FieldsShow d url r fs := by
  obtain ⟨sx, k1, hok, hsx, -⟩ := imported_corpus t d url hd hr hne
  have hadd : (Pipeline.addSite d url {}).1 = sx := by
    unfold Pipeline.addSite
    cases hx : SX.addSiteData (fun _ => none) d url (Conn.fresh {}) with
    | mk c r =>
      rw [hx] at k1
      exact k1.committed
  rw [hadd, hsx]
  exact fresh_fields d url hd n r hn

/-- **C80.** From a Stack Exchange dump to web pages.  `stackexchange-corpus add-site` on a tidy, readable dump and a new corpus
file, `index`, `model` and `stackexchange-corpus serve`: all succeed, the model has the values that at least `--min-docs` of the
questions and answers show, and requests for its pages change nothing.  The overview lists all clusters, each once, and the
page of each cluster lists its values, counts the posts that show one of them, and shows 30 of these posts, or all if there are
fewer: each is the template filled in with what the dump says about the post. -/
theorem dump_served (t : SX.TextOps) (h0 : t.tokens "" = []) (scan : List SX.Post → List SX.Post)
    (hscan : ∀ l, (scan l).Perm l) (d : SX.Dump) (url : String) (hd : Tidy d) (hr : DumpReadable t d) (hne : considered d ≠ [])
    (vocabulary : List (String × String))
    (hvoc : ∀ r ∈ considered d, ∀ fl w, SxShows t (docFrom d url 1 r) fl w → (fl, w) ∈ vocabulary) (hsize : vocabulary.length ≤ 2 ^ 62)
    (cfg : IndexCfg) (s : Schedule) (hf : Fair s) (hno : ∀ i, s.fault i = none) (f : File) (hu : Usable f)
    (luck : Luck Rat) (hscore : luck.score = exactScorer luck.chance) (hshuffle : ∀ l, (luck.shuffle l).Perm l)
    (args : ModelArgs) (confirm : Bool) (hm : f.data.clusters = [] ∨ (args.restart = true ∧ confirm = true))
    (hn : ∀ k, args.clusters = some k → 0 ≤ k) (hit : 1 ≤ args.iterations) (hk : 1 ≤ args.groupTopK) (hmin : 1 ≤ args.minDocs)
    (hfields : args.fields.Nodup)
    (order : List String → List String) (ho : ∀ l, (order l).Perm l)
    (hint : ReadsNumbers int) (v : Visit σ) (hw : FairWeb v.web) (hp : Draws v.web.pick) :
    let docs := (considered d).zipIdx
    let corpus := Pipeline.addSite d url {}
    let indexed := Pipeline.indexSx t scan cfg s corpus.1 f
    let modelled := Pipeline.model luck args confirm indexed.1
    let get := fun url' => follow int (stackExchange t scan order corpus.1) modelled.1 { v with request := .get url' }
    let shows := fun (x : SX.PostRow × Nat) (field : String) (y : Val) => ∃ w, y = .text w ∧ SxShows t (docFrom d url 1 x.1) field w
    corpus.2 = .ok () ∧ indexed.2 = .ok () ∧ modelled.2 = .done ∧ Servable modelled.1 ∧ Current modelled.1 ∧
    (∀ fl x, (∃ c, ValueIn modelled.1.data fl x c) ↔
      args.minDocs ≤ howMany (fun d => shows d fl x) docs ∧ (args.fields = [] ∨ fl ∈ args.fields)) ∧
    (∀ url n, (get url n).1.data = modelled.1.data) ∧
    ((∃ c fl x, ValueIn modelled.1.data fl x c) → ∃ p L, (get "/index/0" 2).2 = .index p ∧ p.clusters = .plain L ∧
      (L.map (·.1)).Nodup ∧ ∀ c, c ∈ L.map (·.1) ↔ ∃ fl x, ValueIn modelled.1.data fl x c) ∧
    ∃ html : SX.PostRow × Nat → String, (∀ x ∈ docs, (∃ fs, html x = String.ofList (SX.postHtml order fs) ∧ RowShows d url x.1 (SX.tableRow order fs)) ∧
        (Unmarking d url x.1 → Finished (html x).toList ∧
          nodes (html x).toList = postNodes d url x.1 (order (tagsIn d (x.1.parent.or x.1.id))))) ∧
      ∀ c, (∃ fl x, ValueIn modelled.1.data fl x c) → ∃ p, (get ("/index/0/cluster/" ++ toString c) 1).2 = .cluster p ∧
        IsClusterPage shows docs (fun x => .int ((x.2 + 1 : Nat) : Int)) html modelled.1.data c 30 p := by
  intro docs corpus indexed modelled get shows
  obtain ⟨hadd, hs, hi, hkne, hkeys, hcont, -⟩ := dump_corpus t h0 scan hscan d url hd hr hne id (fun l => .refl _)
  set content := fun k => okOr (SX.indexed t (Pipeline.addSite d url {}).1 k) with hcontent
  have hdoc : ∀ x, x ∈ docs ↔ (considered d)[x.2]? = some x.1 := fun x => List.mem_zipIdx_iff_getElem?
  have hperm : (SX.corpus t scan corpus.1).keys.Perm (docs.map (fun x => Val.int ((x.2 + 1 : Nat) : Int))) := by
    have hnd : (docs.map (fun x => Val.int ((x.2 + 1 : Nat) : Int))).Nodup := by
      have : docs.map (fun x => Val.int ((x.2 + 1 : Nat) : Int)) = (docs.map (·.2)).map (fun n : Nat => Val.int ((n + 1 : Nat) : Int)) := by
        rw [List.map_map]; rfl
      rw [this, show docs.map (·.2) = List.range' 0 (considered d).length from List.zipIdx_map_snd 0 _]
      exact List.Nodup.map (fun a b h => by simpa using h) List.nodup_range'
    rw [List.perm_ext_iff_of_nodup hs.keys hnd]
    intro k
    rw [hkeys]
    simp only [List.mem_map]
    constructor
    · rintro ⟨i, r, h1, rfl⟩; exact ⟨(r, i), (hdoc _).2 h1, rfl⟩
    · rintro ⟨⟨r, i⟩, h1, rfl⟩; exact ⟨i, r, (hdoc _).1 h1, rfl⟩
  have hshows : ∀ x ∈ docs, ∀ fl y, HasValue content (.int ((x.2 + 1 : Nat) : Int)) fl y ↔ shows x fl y := fun x hx fl y =>
    hcont x.2 x.1 ((hdoc x).1 hx) fl y
  have hall : ∀ n : Nat, ∃ fs, ∀ r, (considered d)[n]? = some r → SX.renderedFields corpus.1 (n + 1) = .ok fs ∧
      FieldsShow d url r fs := by
    intro n
    cases hn' : (considered d)[n]? with
    | none => exact ⟨(⟨0, "", none, none, none, none, none, "", none, none, none, none⟩, [], []), fun r h => by cases h⟩
    | some r =>
      obtain ⟨fs, e1, e2⟩ := dump_rendered t d url hd hr hne n r hn'
      refine ⟨fs, fun r' h' => ?_⟩
      cases h'
      exact ⟨e1, e2⟩
  choose g hg using hall
  obtain ⟨a1, a2, a3, a4, a5, a6, a7, a8⟩ := any_served (int := int) hs cfg (hi _) hkne s hf hno f hu
    (vocabulary.map (fun x => (x.1, Val.text x.2))) (by
      intro k hk' fl y hv'
      obtain ⟨i, r, h1, rfl⟩ := (hkeys k).1 hk'
      obtain ⟨w, rfl, h3⟩ := (hcont i r h1 fl y).1 hv'
      exact List.mem_map.2 ⟨(fl, w), hvoc r (List.mem_of_getElem? h1) fl w h3, rfl⟩) (by rw [List.length_map]; exact hsize)
    luck hscore hshuffle args confirm hm hn hit hk hmin hfields hint (SX.corpus t scan corpus.1) (sxHtml order corpus.1)
    (fun k => String.ofList (SX.postHtml order (g ((SX.asKey k).getD 0 - 1)))) (by
      intro ks hks
      unfold sxHtml
      apply mapM_all_ok
      intro k hk'
      obtain ⟨n, r, h1, rfl⟩ := (hkeys k).1 (hks k hk')
      have : SX.asKey (Val.int ((n + 1 : Nat) : Int)) = some (n + 1) := rfl
      rw [this]
      dsimp only
      rw [(hg n r h1).1]
      rfl) v hw hp
  refine ⟨hadd, a1, a2, a3, a4, ?_, a6, a7, fun x => String.ofList (SX.postHtml order (g x.2)), ?_, ?_⟩
  · intro fl x
    rw [← howMany_keys (shows := fun k => HasValue content k fl x) hperm (fun d hd => hshows d hd fl x)]
    exact a5 fl x
  · intro x hx
    have hshow := (hg x.2 x.1 ((hdoc x).1 hx)).2
    refine ⟨⟨g x.2, rfl, rowShows_of_fields hshow order ho⟩, fun hu => ?_⟩
    rw [String.toList_ofList]
    exact post_read hshow hu order ho
  · intro c hc
    obtain ⟨p, p1, p2⟩ := a8 c hc
    exact ⟨p, p1, page_of_keys hperm hshows (fun x _ => rfl) p2⟩

/-- **C80.** From tweets to web pages: `twittersphere-corpus index` on a readable collection of the version the program knows,
`model` and `twittersphere-corpus serve` succeed (with positions: if no tweet misses anything), and the pages are those of the
tweets, each shown as the template filled in with the stored tweet. -/
theorem tweets_served (t : TW.TextOps) (template : TW.Doc → String) (tw : TW.Db) (hr : TwReadable t tw)
    (hver : ∃ v, tw.version = some v ∧ 15 ≤ v) (hne : tw.direct ≠ []) (vocabulary : List (String × Val))
    (hvoc : ∀ x ∈ collected tw, ∀ fl v, TwShows t tw x fl v → (fl, v) ∈ vocabulary) (hsize : vocabulary.length ≤ 2 ^ 62)
    (cfg : IndexCfg) (hpos : cfg.positions = true → ∀ x ∈ collected tw, NothingMissing tw x)
    (s : Schedule) (hf : Fair s) (hno : ∀ i, s.fault i = none) (f : File) (hu : Usable f)
    (luck : Luck Rat) (hscore : luck.score = exactScorer luck.chance) (hshuffle : ∀ l, (luck.shuffle l).Perm l)
    (args : ModelArgs) (confirm : Bool) (hm : f.data.clusters = [] ∨ (args.restart = true ∧ confirm = true))
    (hn : ∀ k, args.clusters = some k → 0 ≤ k) (hit : 1 ≤ args.iterations) (hk : 1 ≤ args.groupTopK) (hmin : 1 ≤ args.minDocs)
    (hfields : args.fields.Nodup)
    (hint : ReadsNumbers int) (v : Visit σ) (hw : FairWeb v.web) (hp : Draws v.web.pick) :
    let docs := collected tw
    let indexed := Pipeline.indexTw t cfg s tw f
    let modelled := Pipeline.model luck args confirm indexed.1
    let get := fun url' => follow int (twittersphere t template tw) modelled.1 { v with request := .get url' }
    let shows := TwShows t tw
    indexed.2 = .ok () ∧ modelled.2 = .done ∧ Servable modelled.1 ∧ Current modelled.1 ∧
    (∀ fl x, (∃ c, ValueIn modelled.1.data fl x c) ↔
      args.minDocs ≤ howMany (fun d => shows d fl x) docs ∧ (args.fields = [] ∨ fl ∈ args.fields)) ∧
    (∀ url n, (get url n).1.data = modelled.1.data) ∧
    ((∃ c fl x, ValueIn modelled.1.data fl x c) → ∃ p L, (get "/index/0" 2).2 = .index p ∧ p.clusters = .plain L ∧
      (L.map (·.1)).Nodup ∧ ∀ c, c ∈ L.map (·.1) ↔ ∃ fl x, ValueIn modelled.1.data fl x c) ∧
    ∃ html : TW.Tweet → String, (∀ x ∈ docs, ∃ doc, TW.docOf t tw x.id = .ok doc ∧ doc.tweet = x ∧ html x = template doc) ∧
      ∀ c, (∃ fl x, ValueIn modelled.1.data fl x c) → ∃ p, (get ("/index/0/cluster/" ++ toString c) 1).2 = .cluster p ∧
        IsClusterPage shows docs (fun x => .int x.id) html modelled.1.data c 30 p := by
  intro docs indexed modelled get shows
  obtain ⟨hs, hkeys⟩ := tw_serves t tw hr
  set content := fun k => okOr (TW.indexed t tw k) with hcontent
  have hshow : ∀ x ∈ collected tw, ∀ fl v, HasValue content (.int x.id) fl v ↔ TwShows t tw x fl v := by
    intro x hx fl v
    obtain ⟨g, hg, hg'⟩ := tw_shows t tw hr x (List.mem_filter.1 hx).1
    rw [← hg' fl v, HasValue]
    show (∃ vs, (fl, vs) ∈ okOr (TW.indexed t tw (.int x.id)) ∧ _) ↔ _
    rw [okOr_eq hg]
  have hkey : ∀ k, k ∈ (TW.corpus t tw).keys ↔ ∃ x ∈ collected tw, k = .int x.id := by
    intro k
    rw [hkeys]
    constructor
    · rintro ⟨x, h1, h2, rfl⟩; exact ⟨x, List.mem_filter.2 ⟨h1, by simpa using h2⟩, rfl⟩
    · rintro ⟨x, h1, rfl⟩
      obtain ⟨h2, h3⟩ := List.mem_filter.1 h1
      exact ⟨x, h2, by simpa using h3, rfl⟩
  have hkne : (TW.corpus t tw).keys ≠ [] := by
    obtain ⟨i, l, e⟩ := List.exists_cons_of_ne_nil hne
    have hi : i ∈ tw.direct := by rw [e]; simp
    obtain ⟨x, hx, rfl⟩ := hr.stored i hi
    exact List.ne_nil_of_mem ((hkeys _).2 ⟨x, hx, hi, rfl⟩)
  have hi : Indexable (TW.corpus t tw) content cfg.positions := by
    refine (tw_indexable t tw hr cfg.positions).2 ?_
    rintro h i hi' x hx rfl
    exact hpos h x (List.mem_filter.2 ⟨hx, by simpa using hi'⟩)
  have hperm : (TW.corpus t tw).keys.Perm ((collected tw).map (fun x => Val.int x.id)) := by
    rw [List.perm_ext_iff_of_nodup hs.keys (by
      have : ((collected tw).map (fun x => Val.int x.id)) = ((collected tw).map (·.id)).map (fun i : Nat => Val.int i) := by
        rw [List.map_map]; rfl
      rw [this]
      exact (hr.tweetIds.sublist (List.Sublist.map _ List.filter_sublist)).map (fun a b h => by simpa using h))]
    intro k
    rw [hkey]
    simp only [List.mem_map, eq_comm]
  have hindexed : indexed = Pipeline.onIndex f (indexCall (TW.corpus t tw) cfg s) := by
    show Pipeline.indexTw t cfg s tw f = _
    rw [Pipeline.indexTw, (twittersphere_opens_iff tw).2 hver]
  have hdocs : ∀ n : Nat, ∃ doc, ∀ x ∈ collected tw, x.id = n → TW.docOf t tw n = .ok doc ∧ doc.tweet = x := by
    intro n
    by_cases hx : ∃ x ∈ collected tw, x.id = n
    · obtain ⟨x, hx, rfl⟩ := hx
      have hx' := (List.mem_filter.1 hx).1
      obtain ⟨g, hg, -⟩ := tw_shows t tw hr x hx'
      have h0 : TW.indexed t tw (.int x.id) = (match TW.docOf t tw x.id with | .error e => .error e | .ok d => TW.features t d) := rfl
      rw [h0] at hg
      cases hd : TW.docOf t tw x.id with
      | error e => rw [hd] at hg; cases hg
      | ok doc =>
        refine ⟨doc, fun y hy hyx => ?_⟩
        have hxy : y = x := List.inj_on_of_nodup_map hr.tweetIds (List.mem_filter.1 hy).1 hx' hyx
        subst hxy
        refine ⟨rfl, ?_⟩
        unfold TW.docOf at hd
        cases hh : (tw.tweets.filter (fun z => z.id = y.id)).head? with
        | none => rw [hh] at hd; cases hd
        | some z =>
          rw [hh] at hd
          dsimp only at hd
          have hz := List.mem_filter.1 (List.mem_of_head? hh)
          have hzy : z = y := List.inj_on_of_nodup_map hr.tweetIds hz.1 hx' (by simpa using hz.2)
          subst hzy
          split at hd
          · cases hd
          · split at hd
            · cases hd
            · cases hd; rfl
    · by_cases hany : ∃ x, x ∈ collected tw
      · obtain ⟨x, hx'⟩ := hany
        obtain ⟨g, hg, -⟩ := tw_shows t tw hr x (List.mem_filter.1 hx').1
        have h0 : TW.indexed t tw (.int x.id) = (match TW.docOf t tw x.id with | .error e => .error e | .ok d => TW.features t d) := rfl
        rw [h0] at hg
        cases hd : TW.docOf t tw x.id with
        | error e => rw [hd] at hg; cases hg
        | ok doc => exact ⟨doc, fun y hy h => absurd ⟨y, hy, h⟩ hx⟩
      · obtain ⟨k, l, e⟩ := List.exists_cons_of_ne_nil hkne
        obtain ⟨x, hx', -⟩ := (hkey k).1 (by rw [e]; simp)
        exact absurd ⟨x, hx'⟩ hany
  choose g hg using hdocs
  have hget : ∀ url', get url' = follow int (.ok (some (TW.corpus t tw, some (twHtml t template tw)))) modelled.1 { v with request := .get url' } := by
    intro url'
    show follow int (twittersphere t template tw) modelled.1 _ = _
    rw [twittersphere, (twittersphere_opens_iff tw).2 hver]
  obtain ⟨a1, a2, a3, a4, a5, a6, a7, a8⟩ := any_served (int := int) hs cfg hi hkne s hf hno f hu vocabulary (by
      intro k hk' fl y hv'
      obtain ⟨x, hx, rfl⟩ := (hkey k).1 hk'
      exact hvoc x hx fl y ((hshow x hx fl y).1 hv')) hsize
    luck hscore hshuffle args confirm hm hn hit hk hmin hfields hint (TW.corpus t tw) (twHtml t template tw)
    (fun k => template (g ((TW.asKey k).getD 0))) (by
      intro ks hks
      unfold twHtml
      apply mapM_all_ok
      intro k hk'
      obtain ⟨x, hx, rfl⟩ := (hkey k).1 (hks k hk')
      have : TW.asKey (Val.int (x.id : Int)) = some x.id := rfl
      rw [this]
      dsimp only
      rw [(hg x.id x hx rfl).1]
      rfl) v hw hp
  rw [← hindexed] at a1 a2 a3 a4 a5 a6 a7 a8
  simp only [hget]
  refine ⟨a1, a2, a3, a4, ?_, a6, a7, fun x => template (g x.id), ?_, ?_⟩
  · intro fl x
    rw [← howMany_keys (shows := fun k => HasValue content k fl x) hperm (fun d hd => hshow d hd fl x)]
    exact a5 fl x
  · intro x hx
    exact ⟨g x.id, (hg x.id x hx rfl).1, (hg x.id x hx rfl).2, rfl⟩
  · intro c hc
    obtain ⟨p, p1, p2⟩ := a8 c hc
    exact ⟨p, p1, page_of_keys hperm hshow (fun x _ => rfl) p2⟩

/-! ## Examples -/

/-- Three lines are turned into two clusters that are browsed: the overview is there and lists a cluster, whose page shows lines. -/
example :
    let corpus := Pipeline.create (· = ' ') 100 (demoLines.flatMap Line.render) none
    let indexed := Pipeline.indexPlain letters ⟨2, 2, true⟩ demoSchedule corpus.1 File.empty
    let modelled := Pipeline.model demoLuck { clusters := some 2, minDocs := 1 } false indexed.1
    ∃ p L, (follow readInt (plain letters corpus.1) modelled.1 (demoVisit (.get "/index/0")) 2).2 = .index p ∧ p.clusters = .plain L ∧
      ∃ c ∈ L.map (·.1), ∃ q, (follow readInt (plain letters corpus.1) modelled.1 (demoVisit (.get ("/index/0/cluster/" ++ toString c))) 1).2
        = .cluster q ∧ 0 < q.total ∧ ∃ rs, q.results = .documents rs ∧ rs ≠ [] := by
  intro corpus indexed modelled
  obtain ⟨-, -, -, -, -, hv, -, ho, hc⟩ := text_file_served (int := readInt) (· = ' ') 100 demoLines demoLines_ok _ (.inl rfl) (by decide +kernel)
    none File.empty (.inl ⟨rfl, rfl, rfl⟩) letters (by decide +kernel) ⟨2, 2, true⟩ demoSchedule demo_fair (fun _ => rfl) demoLuck rfl
    (fun _ => .refl _) { clusters := some 2, minDocs := 1 } false (.inl rfl) (by intro k hk; cases hk; decide) (by decide) (by decide)
    (by decide) (by decide) readInt_reads (demoVisit (.get "/")) demoWeb_fair draws_first
  have hpos : 1 ≤ howMany (fun d : Nat × String => "text" = "text" ∧ ∃ t ∈ letters d.2, Val.text "a" = .text t)
      (numbered (documents (· = ' ') demoLines)) := by
    rw [howMany, Nat.one_le_iff_ne_zero, ← Nat.pos_iff_ne_zero, List.countP_pos_iff]
    exact ⟨(1, "b a"), by decide +kernel, by simpa using (by decide +kernel : "a" ∈ letters "b a")⟩
  obtain ⟨c, hca⟩ := (hv "text" (.text "a")).2 ⟨hpos, .inl rfl⟩
  obtain ⟨p, L, h1, h2, -, h3⟩ := ho ⟨c, _, _, hca⟩
  refine ⟨p, L, h1, h2, c, (h3 c).2 ⟨_, _, hca⟩, ?_⟩
  obtain ⟨q, q1, -, -, -, q2, rs, q3, q4, -⟩ := hc c ⟨_, _, hca⟩
  have ht : 0 < q.total := by
    rw [q2, howMany, List.countP_pos_iff]
    refine ⟨(1, "b a"), by decide +kernel, ?_⟩
    simp only [decide_eq_true_eq]
    exact ⟨"text", .text "a", ⟨rfl, "a", by decide +kernel, rfl⟩, hca⟩
  refine ⟨q, q1, ht, rs, q3, ?_⟩
  intro h
  rw [h, List.length_nil] at q4
  omega

/-- The sample dump is served: the site is a value of the model, and its cluster has a page that counts both posts. -/
example (corpus : SX.Db × Except Err Unit) (hcorpus : Pipeline.addSite sampleDump "site" {} = corpus)
    (indexed : File × Except Err Unit) (hindexed : Pipeline.indexSx fieldOps List.reverse ⟨2, 2, true⟩ demoSchedule corpus.1 File.empty = indexed)
    (modelled : File × Outcome) (hmodelled : Pipeline.model demoLuck { clusters := some 2, minDocs := 1 } false indexed.1 = modelled) :
    ∃ c p, ValueIn modelled.1.data "Site" (.text "site") c ∧
      (follow readInt (stackExchange fieldOps List.reverse List.reverse corpus.1) modelled.1
        (demoVisit (.get ("/index/0/cluster/" ++ toString c))) 1).2 = .cluster p ∧ p.total = 2 := by
  have main := dump_served (int := readInt) fieldOps rfl List.reverse List.reverse_perm sampleDump "site"
    sampleDump_tidy sampleDump_readable (by decide +kernel) sampleVocabulary sampleVocabulary_covers (by decide +kernel) ⟨2, 2, true⟩
    demoSchedule demo_fair (fun _ => rfl) File.empty (.inl ⟨rfl, rfl, rfl⟩) demoLuck rfl (fun _ => .refl _)
    { clusters := some 2, minDocs := 1 } false (.inl rfl) (by intro k hk; cases hk; decide) (by decide) (by decide) (by decide) (by decide)
    List.reverse List.reverse_perm readInt_reads (demoVisit (.get "/")) demoWeb_fair draws_first
  dsimp only at main
  rw [hcorpus, hindexed, hmodelled] at main
  obtain ⟨-, -, -, -, -, hv, -, -, html, -, hc⟩ := main
  have hsite : ∀ x : SX.PostRow × Nat, ∃ w, Val.text "site" = .text w ∧ SxShows fieldOps (docFrom sampleDump "site" 1 x.1) "Site" w :=
    fun x => ⟨"site", rfl, .site⟩
  have hmany : ∀ P : SX.PostRow × Nat → Prop, (∀ x, P x) → howMany P (considered sampleDump).zipIdx = 2 := by
    intro P hP
    rw [howMany, List.countP_eq_length.2 (fun x _ => by simpa using hP x)]
    decide +kernel
  obtain ⟨c, hcs⟩ := (hv "Site" (.text "site")).2 ⟨by rw [hmany _ hsite]; decide, .inl rfl⟩
  obtain ⟨p, p1, -, -, -, p2, -⟩ := hc c ⟨_, _, hcs⟩
  refine ⟨c, p, hcs, p1, ?_⟩
  rw [p2]
  exact hmany _ (fun x => ⟨"Site", .text "site", hsite x, hcs⟩)

/-- The collection of two linked tweets meets the hypotheses of `tweets_served` (those on the corpus are shown at the end of
`Props/PipelineSx`); its template has both tweets to fill in.  A collection without a version is refused at every request that
needs the index. -/
example : (collected linkedTweets).map (fun x => (TW.docOf twOps linkedTweets x.id matches .ok _)) = [true, true] ∧
    (twittersphere twOps (fun d => toString d.tweet.id) linkedTweets matches .ok (some _)) = true ∧
    ((request readInt (twittersphere twOps (fun d => toString d.tweet.id) { linkedTweets with version := none }) oldFile
      (demoVisit (.get "/index/0/"))).2 matches .failed _) = true := by
  decide +kernel

end Hyperreal.Props
