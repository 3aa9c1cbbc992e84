import Verif.Props.PipelineSx
import Verif.Props.Pivot
import Verif.Spec.ExportGraph

/-!
# `hyperreal export graph`
-/

namespace Hyperreal.Props
open Atomic Spec Cli Migrate

variable {corpus : Corpus} {content : Val → Features} {σ : Type} [LinearOrder σ]

/-- A file that is not an index is refused, and left alone. -/
theorem graph_refuses (rd : Rat → σ) (visitC : List ClusterRow → List ClusterRow) (visit : List Listed → List Listed)
    (completed : List (Int × List (Int × σ × Nat)) → List (Int × List (Int × σ × Nat))) (topK : Int) (includeField : Bool)
    (f : File) (h : f.applicationId ≠ magicId) :
    Pipeline.exportGraph rd visitC visit completed topK includeField f = (f, .error .valueError) := by
  rw [Pipeline.exportGraph, if_neg (by simpa [isIndexDb] using h)]

theorem listed_values (db : DB) (hs : Settled db) (keys : List Val)
    (hdocs : ∀ r ∈ db.features, ∀ d, d ∈ r.docs ↔ ∃ k, keys[d]? = some k ∧ HasValue content k r.field r.value)
    (c : Int) (topK : Int) (L : List Listed) (hL : IsListing (·.fid) (·.docsCount) db c (Pipeline.rowLimit db topK) L)
    (hrow : ∀ x ∈ L, ∃ r ∈ db.features, r.fid = x.fid ∧ r.field = x.field ∧ r.value = x.value) :
    IsTopValues (HasValue content) keys db c topK (L.map (fun x => (x.field, x.value, x.docsCount))) := by
  have hw := hs.toWellformed
  have hinj : ∀ x ∈ db.features, ∀ y ∈ db.features, x.fid = y.fid → x = y := fun x hx y hy h =>
    List.inj_on_of_nodup_map hs.featureIds hx hy h
  have hkey : ∀ x ∈ db.features, ∀ y ∈ db.features, x.field = y.field → x.value = y.value → x = y := fun x hx y hy h h' =>
    List.inj_on_of_nodup_map hs.featureKeys hx hy (Prod.ext h h')
  have hof : ∀ r ∈ db.features, db.docsOf r.fid = r.docs := by
    intro r hr
    rw [DB.docsOf, (feature?_eq_some hw r.fid r).2 ⟨hr, rfl⟩]
  have hcard : ∀ r ∈ db.features, (db.docsOf r.fid).card = howMany (fun k => HasValue content k r.field r.value) keys :=
    fun r hr => by rw [hof r hr]; exact card_howMany _ _ _ (hdocs r hr)
  have hmap : (L.map (fun x => (x.field, x.value, x.docsCount))).map (fun x => (x.1, x.2.1)) = L.map (fun x => (x.field, x.value)) := by
    rw [List.map_map]; rfl
  refine ⟨?_, ?_, ?_, ?_, ?_, ?_⟩
  · intro V hV hV'
    have hlen : (featuresIn db c).length = V.length := by
      let g : Nat → String × Val := fun fid => ((db.feature? fid).map (fun r => (r.field, r.value))).getD ("", .int 0)
      have hg : ∀ r ∈ db.features, g r.fid = (r.field, r.value) := by
        intro r hr
        simp only [g, (feature?_eq_some hw r.fid r).2 ⟨hr, rfl⟩, Option.map_some, Option.getD_some]
      have hin : ∀ fid ∈ featuresIn db c, ∃ r ∈ db.features, r.fid = fid ∧ assign db r.fid = some c := by
        intro fid h
        rw [mem_featuresIn hw] at h
        obtain ⟨row, h1, h2, h3⟩ := (assign_some_iff hw fid c).1 h
        obtain ⟨r, hr, e, -⟩ := hw.knownFeature row h1
        exact ⟨r, hr, e.trans h2, by rw [e, h2]; exact h⟩
      have hp : ((featuresIn db c).map g).Perm V := by
        rw [List.perm_ext_iff_of_nodup _ hV]
        · intro x
          rw [hV', List.mem_map]
          constructor
          · rintro ⟨fid, h, rfl⟩
            obtain ⟨r, hr, rfl, h'⟩ := hin fid h
            rw [hg r hr]
            exact ⟨r, hr, rfl, rfl, h'⟩
          · rintro ⟨r, hr, h1, h2, h3⟩
            exact ⟨r.fid, (mem_featuresIn hw _ _).2 h3, by rw [hg r hr, h1, h2]⟩
        · refine (featuresIn_nodup hw c).map_on ?_
          intro a ha b hb hab
          obtain ⟨ra, hra, rfl, -⟩ := hin a ha
          obtain ⟨rb, hrb, rfl, -⟩ := hin b hb
          rw [hg ra hra, hg rb hrb] at hab
          rw [hkey ra hra rb hrb (congrArg Prod.fst hab) (congrArg Prod.snd hab)]
      rw [← hp.length_eq, List.length_map]
    rw [List.length_map, hL.size, hlen, Pipeline.rowLimit]
    split
    · have : (featuresIn db c).length ≤ db.fc.length := by
        rw [featuresIn, List.length_map]; exact List.length_filter_le _ _
      omega
    · rfl
  · rw [hmap]
    have h1 : L.Nodup := List.Nodup.of_map _ hL.once
    refine h1.map_on ?_
    intro x hx y hy h
    obtain ⟨r, hr, a1, a2, a3⟩ := hrow x hx
    obtain ⟨q, hq, b1, b2, b3⟩ := hrow y hy
    have h2 := congrArg Prod.fst h
    have h3 := congrArg Prod.snd h
    dsimp only at h2 h3
    have : r = q := hkey r hr q hq (by rw [a2, b2, h2]) (by rw [a3, b3, h3])
    exact List.inj_on_of_nodup_map hL.once hx hy (by rw [← a1, ← b1, this])
  · intro y hy
    obtain ⟨x, hx, rfl⟩ := List.mem_map.1 hy
    obtain ⟨r, hr, a1, a2, a3⟩ := hrow x hx
    exact ⟨r, hr, a2, a3, by rw [a1]; exact hL.inCluster x hx⟩
  · intro y hy
    obtain ⟨x, hx, rfl⟩ := List.mem_map.1 hy
    obtain ⟨r, hr, a1, a2, a3⟩ := hrow x hx
    dsimp only
    rw [hL.counts x hx, ← a1, hcard r hr, a2, a3]
  · rw [List.pairwise_map]; exact hL.descending
  · intro fl v hin hout y hy
    obtain ⟨x, hx, rfl⟩ := List.mem_map.1 hy
    obtain ⟨r, hr, rfl, rfl, h3⟩ := hin
    dsimp only
    rw [← hcard r hr]
    refine hL.best r.fid h3 ?_ x hx
    intro hmem
    obtain ⟨z, hz, e⟩ := List.mem_map.1 hmem
    obtain ⟨q, hq, b1, b2, b3⟩ := hrow z hz
    have : q = r := hinj q hq r hr (b1.trans e)
    subst this
    exact hout (by rw [hmap]; exact List.mem_map.2 ⟨z, hz, by rw [b2, b3]⟩)

/-- **C79.** Index any corpus whose documents can be indexed, make a new model of it and `export graph`: the graph written is
the graph of the model of that corpus, whatever the order in which rows are read and the comparisons complete; the index is
left as it was.  With `--exclude-field-in-label` this needs the values in the model to be text; otherwise (all values being
named) the command raises `TypeError`, without writing a file. -/
theorem any_to_graph (hs : Serves corpus content) (cfg : IndexCfg) (hi : Indexable corpus content cfg.positions)
    (hne : corpus.keys ≠ []) (s : Schedule) (hf : Fair s) (hno : ∀ i, s.fault i = none) (f : File) (hu : Usable f)
    (luck : Luck Rat) (hscore : luck.score = exactScorer luck.chance) (hshuffle : ∀ l, (luck.shuffle l).Perm l)
    (args : ModelArgs) (confirm : Bool) (hm : f.data.clusters = [] ∨ (args.restart = true ∧ confirm = true))
    (hn : ∀ k, args.clusters = some k → 0 ≤ k) (hit : 1 ≤ args.iterations) (hk : 1 ≤ args.groupTopK)
    (hfields : args.fields.Nodup)
    (rd : Rat → σ) (visitC : List ClusterRow → List ClusterRow) (hvC : AnyOrder visitC)
    (visit : List Listed → List Listed) (hv : AnyOrder visit)
    (completed : List (Int × List (Int × σ × Nat)) → List (Int × List (Int × σ × Nat))) (hcomp : AnyOrder completed)
    (topK : Int) (includeField : Bool) :
    let indexed := Pipeline.onIndex f (indexCall corpus cfg s)
    let modelled := Pipeline.model luck args confirm indexed.1
    let exported := Pipeline.exportGraph rd visitC visit completed topK includeField modelled.1
    indexed.2 = .ok () ∧ modelled.2 = .done ∧ exported.1.data = modelled.1.data ∧
    ((includeField = false ∧ topK < 0 ∧ ∃ field i c, ValueIn modelled.1.data field (.int i) c) → exported.2 = .error .typeError) ∧
    ((includeField = true ∨ ∀ field v c, ValueIn modelled.1.data field v c → ∃ s, v = .text s) →
      ∃ g, exported.2 = .ok g ∧ IsModelGraph (HasValue content) corpus.keys modelled.1.data rd topK includeField g) := by
  intro indexed modelled exported
  obtain ⟨hind, hmod, hu2, hid, o2, i3, -, -, -⟩ := any_modelled hs cfg hi hne s hf hno f hu
    luck hscore hshuffle args confirm hm hn hit hk hfields
  set db := modelled.1.data with hdb
  let held := fun k c => InCluster (HasValue content) db k c
  have hw := o2.toWellformed
  have hexp : exported = ({ opened Faults.none modelled.1 with data := db },
      cooccurrenceGraph rd visitC visit completed db (Pipeline.rowLimit db topK) includeField) := by
    show Pipeline.exportGraph rd visitC visit completed topK includeField modelled.1 = _
    rw [Pipeline.exportGraph, if_pos hid, onIndex_usable _ hu2]
    rfl
  refine ⟨hind, hmod, by rw [hexp], ?_, fun hlab => ?_⟩
  · rintro ⟨rfl, hneg, fl, i, c, r, hr, -, hval, hin⟩
    rw [hexp]
    refine graph_labels_refused rd visitC hvC visit hv completed db o2 _ c r hr hin i hval ?_
    rw [Pipeline.rowLimit, if_pos hneg, featuresIn, List.length_map]
    exact List.length_filter_le _ _
  obtain ⟨g, g1, g2, g3, g4, g5, g6⟩ := cluster_graph_spec rd visitC hvC visit hv completed hcomp db o2
    (Pipeline.rowLimit db topK) includeField (hlab.imp_right (fun h r hr ha => by
      obtain ⟨c, hc⟩ := Option.isSome_iff_exists.1 ha
      exact h r.field r.value c ⟨r, hr, rfl, rfl, hc⟩))
  have hcl : ∀ c, hasCluster db c ↔ ∃ field v, ValueIn db field v c := by
    intro c
    constructor
    · rintro ⟨k, hk1, rfl⟩
      obtain ⟨row, h1, h3⟩ := (o2.summaries k hk1).nonempty
      obtain ⟨r, hr, e, -⟩ := hw.knownFeature row h1
      exact ⟨r.field, r.value, r, hr, rfl, rfl, (assign_some_iff hw _ _).2 ⟨row, h1, e.symm, h3⟩⟩
    · rintro ⟨fl, v, r, hr, -, -, h⟩
      obtain ⟨row, h1, h2, h3⟩ := (assign_some_iff hw r.fid c).1 h
      rw [← h3]
      exact hw.knownCluster row h1
  have hcov : ∀ c d, CoveredBy db c d ↔ ∃ k, corpus.keys[d]? = some k ∧ held k c := by
    intro c d
    constructor
    · rintro ⟨fid, h1, h2⟩
      rw [DB.docsOf] at h2
      cases hx : db.feature? fid with
      | none => rw [hx] at h2; simp at h2
      | some r =>
        rw [hx] at h2
        obtain ⟨hr, rfl⟩ := (feature?_eq_some hw fid r).1 hx
        obtain ⟨k, e1, e2⟩ := (i3 r hr d).1 h2
        exact ⟨k, e1, r.field, r.value, ⟨r, hr, rfl, rfl, h1⟩, e2⟩
    · rintro ⟨k, e1, fl, v, ⟨r, hr, rfl, rfl, h1⟩, e2⟩
      refine ⟨r.fid, h1, ?_⟩
      rw [DB.docsOf, (feature?_eq_some hw r.fid r).2 ⟨hr, rfl⟩]
      exact (i3 r hr d).2 ⟨k, e1, e2⟩
  refine ⟨g, by rw [hexp]; exact g1, g2, fun c => (g3 c).trans (hcl c), ?_, ?_, g5, ?_⟩
  · intro c n label hnode
    obtain ⟨⟨D, hD, hn'⟩, -⟩ := g4 _ hnode
    dsimp only at hD hn'
    rw [hn']
    exact card_howMany _ _ _ (fun d => (hD d).trans (hcov c d))
  · intro c n label hnode
    obtain ⟨-, L, hL, hrow, hlabel⟩ := g4 _ hnode
    dsimp only at hL hlabel
    refine ⟨L.map (fun x => (x.field, x.value, x.docsCount)), listed_values db o2 corpus.keys i3 c topK L hL hrow, ?_⟩
    rw [hlabel, List.map_map]; rfl
  · intro a b w
    rw [g6]
    constructor
    · rintro ⟨hab, -, -, ⟨d, da, db'⟩, A, B, hA, hB, hw'⟩
      obtain ⟨k, k1, k2⟩ := (hcov a d).1 da
      obtain ⟨k', k1', k2'⟩ := (hcov b d).1 db'
      have : k = k' := by rw [k1] at k1'; exact Option.some.inj k1'
      subst this
      refine ⟨hab, ⟨k, List.mem_of_getElem? k1, k2, k2'⟩, ?_⟩
      show w = rd ((howMany (fun k => held k a ∧ held k b) corpus.keys : Rat) / (howMany (fun k => held k a ∨ held k b) corpus.keys : Rat))
      rw [hw', similarity, card_howMany (fun k => held k a ∧ held k b) corpus.keys (A ∩ B),
        card_howMany (fun k => held k a ∨ held k b) corpus.keys (A ∪ B)]
      · intro d
        rw [Finset.mem_union, hA, hB, hcov, hcov]
        grind
      · intro d
        rw [Finset.mem_inter, hA, hB, hcov, hcov]
        grind
    · rintro ⟨hab, ⟨k, hk1, ka, kb⟩, hw'⟩
      obtain ⟨d, hd⟩ := List.mem_iff_getElem?.1 hk1
      have hA := (hcov a d).2 ⟨k, hd, ka⟩
      have hB := (hcov b d).2 ⟨k, hd, kb⟩
      have hset : ∀ c, ∃ A : Bitmap, ∀ d, d ∈ A ↔ CoveredBy db c d := by
        intro c
        classical
        refine ⟨(Finset.range corpus.keys.length).filter (fun d => CoveredBy db c d), fun d => ?_⟩
        rw [Finset.mem_filter, Finset.mem_range]
        refine ⟨fun h => h.2, fun h => ⟨?_, h⟩⟩
        obtain ⟨k, e, -⟩ := (hcov c d).1 h
        exact (List.getElem?_eq_some_iff.1 e).1
      obtain ⟨A, hA'⟩ := hset a
      obtain ⟨B, hB'⟩ := hset b
      refine ⟨hab, ?_, ?_, ⟨d, hA, hB⟩, A, B, hA', hB', ?_⟩
      · obtain ⟨fl, v, h, -⟩ := ka; exact (hcl a).2 ⟨fl, v, h⟩
      · obtain ⟨fl, v, h, -⟩ := kb; exact (hcl b).2 ⟨fl, v, h⟩
      · rw [hw', similarity, card_howMany (fun k => held k a ∧ held k b) corpus.keys (A ∩ B),
          card_howMany (fun k => held k a ∨ held k b) corpus.keys (A ∪ B)]
        · intro d
          rw [Finset.mem_union, hA', hB', hcov, hcov]
          grind
        · intro d
          rw [Finset.mem_inter, hA', hB', hcov, hcov]
          grind

/-- Only how many documents have which values matters, not what the documents are. -/
theorem modelGraph_congr {α β : Type} (shows : α → String → Val → Prop) (shows' : β → String → Val → Prop) (l : List α) (m : List β)
    (hl : l.length = m.length) (h : ∀ (i : Nat) a b, l[i]? = some a → m[i]? = some b → ∀ f v, shows a f v ↔ shows' b f v)
    (db : DB) (rd : Rat → σ) (topK : Int) (includeField : Bool) (g : Graph σ) (hg : IsModelGraph shows l db rd topK includeField g) :
    IsModelGraph shows' m db rd topK includeField g := by
  have hin : ∀ (i : Nat) a b, l[i]? = some a → m[i]? = some b → ∀ c, InCluster shows db a c ↔ InCluster shows' db b c := by
    intro i a b ha hb c
    unfold InCluster
    simp only [h i a b ha hb]
  have hcount : ∀ f v, howMany (fun d => shows d f v) l = howMany (fun d => shows' d f v) m := fun f v =>
    howMany_congr _ _ _ _ hl (fun i a b ha hb => h i a b ha hb f v)
  refine ⟨hg.nodeOnce, hg.nodes, ?_, ?_, hg.edgeOnce, ?_⟩
  · intro c n label hn
    rw [hg.counts c n label hn]
    exact howMany_congr _ _ _ _ hl (fun i a b ha hb => hin i a b ha hb c)
  · intro c n label hn
    obtain ⟨L, hL, e⟩ := hg.labels c n label hn
    refine ⟨L, ⟨hL.size, hL.once, hL.inCluster, ?_, hL.descending, ?_⟩, e⟩
    · intro x hx; rw [← hcount]; exact hL.counts x hx
    · intro f v h1 h2 x hx; rw [← hcount]; exact hL.best f v h1 h2 x hx
  · intro a b w
    rw [hg.edges]
    have h1 : howMany (fun x => InCluster shows db x a ∧ InCluster shows db x b) l =
        howMany (fun x => InCluster shows' db x a ∧ InCluster shows' db x b) m :=
      howMany_congr _ _ _ _ hl (fun i x y hx hy => by rw [hin i x y hx hy, hin i x y hx hy])
    have h2 : howMany (fun x => InCluster shows db x a ∨ InCluster shows db x b) l =
        howMany (fun x => InCluster shows' db x a ∨ InCluster shows' db x b) m :=
      howMany_congr _ _ _ _ hl (fun i x y hx hy => by rw [hin i x y hx hy, hin i x y hx hy])
    have h3 : (∃ x ∈ l, InCluster shows db x a ∧ InCluster shows db x b) ↔
        ∃ x ∈ m, InCluster shows' db x a ∧ InCluster shows' db x b := by
      constructor
      · rintro ⟨x, hx, k⟩
        obtain ⟨i, hi⟩ := List.mem_iff_getElem?.1 hx
        have hlt : i < m.length := by rw [← hl]; exact (List.getElem?_eq_some_iff.1 hi).1
        exact ⟨m[i], List.getElem_mem _, by rwa [← hin i x m[i] hi (List.getElem?_eq_getElem hlt), ← hin i x m[i] hi (List.getElem?_eq_getElem hlt)]⟩
      · rintro ⟨x, hx, k⟩
        obtain ⟨i, hi⟩ := List.mem_iff_getElem?.1 hx
        have hlt : i < l.length := by rw [hl]; exact (List.getElem?_eq_some_iff.1 hi).1
        exact ⟨l[i], List.getElem_mem _, by rwa [hin i l[i] x (List.getElem?_eq_getElem hlt) hi, hin i l[i] x (List.getElem?_eq_getElem hlt) hi]⟩
    rw [h1, h2, h3]

theorem modelGraph_perm {α : Type} (shows : α → String → Val → Prop) {l m : List α} (hp : l.Perm m)
    (db : DB) (rd : Rat → σ) (topK : Int) (includeField : Bool) (g : Graph σ) (hg : IsModelGraph shows l db rd topK includeField g) :
    IsModelGraph shows m db rd topK includeField g := by
  refine ⟨hg.nodeOnce, hg.nodes, ?_, ?_, hg.edgeOnce, ?_⟩
  · intro c n label hn
    rw [hg.counts c n label hn]
    exact howMany_perm _ hp
  · intro c n label hn
    obtain ⟨L, hL, e⟩ := hg.labels c n label hn
    refine ⟨L, ⟨hL.size, hL.once, hL.inCluster, ?_, hL.descending, ?_⟩, e⟩
    · intro x hx; rw [← howMany_perm _ hp]; exact hL.counts x hx
    · intro f v h1 h2 x hx; rw [← howMany_perm _ hp]; exact hL.best f v h1 h2 x hx
  · intro a b w
    rw [hg.edges, howMany_perm _ hp, howMany_perm _ hp]
    simp only [hp.mem_iff]

/-- **C79, data dumps.** The graph exported for a new model of a tidy, readable data dump is the graph of the model of its questions
and answers; all labels can be made. -/
theorem dump_to_graph (t : SX.TextOps) (h0 : t.tokens "" = []) (scan : List SX.Post → List SX.Post)
    (hscan : ∀ l, (scan l).Perm l) (d : SX.Dump) (url : String) (hd : Tidy d) (hr : DumpReadable t d) (hne : considered d ≠ [])
    (cfg : IndexCfg) (s : Schedule) (hf : Fair s) (hno : ∀ i, s.fault i = none) (f : File) (hu : Usable f)
    (luck : Luck Rat) (hscore : luck.score = exactScorer luck.chance) (hshuffle : ∀ l, (luck.shuffle l).Perm l)
    (args : ModelArgs) (confirm : Bool) (hm : f.data.clusters = [] ∨ (args.restart = true ∧ confirm = true))
    (hn : ∀ k, args.clusters = some k → 0 ≤ k) (hit : 1 ≤ args.iterations) (hk : 1 ≤ args.groupTopK) (hmin : 1 ≤ args.minDocs)
    (hfields : args.fields.Nodup)
    (rd : Rat → σ) (visitC : List ClusterRow → List ClusterRow) (hvC : AnyOrder visitC)
    (visit : List Listed → List Listed) (hv : AnyOrder visit)
    (completed : List (Int × List (Int × σ × Nat)) → List (Int × List (Int × σ × Nat))) (hcomp : AnyOrder completed)
    (topK : Int) (includeField : Bool) :
    let corpus := Pipeline.addSite d url {}
    let indexed := Pipeline.indexSx t scan cfg s corpus.1 f
    let modelled := Pipeline.model luck args confirm indexed.1
    let exported := Pipeline.exportGraph rd visitC visit completed topK includeField modelled.1
    corpus.2 = .ok () ∧ indexed.2 = .ok () ∧ modelled.2 = .done ∧ exported.1.data = modelled.1.data ∧
    ∃ g, exported.2 = .ok g ∧
      IsModelGraph (fun r fl v => ∃ w, v = .text w ∧ SxShows t (docFrom d url 1 r) fl w) (considered d) modelled.1.data rd topK
        includeField g := by
  intro corpus indexed modelled exported
  obtain ⟨hadd, hs, hi, hkne, hkeys, hcont, -⟩ := dump_corpus t h0 scan hscan d url hd hr hne id (fun l => .refl _)
  set content := fun k => okOr (SX.indexed t (Pipeline.addSite d url {}).1 k) with hcontent
  have hperm : (SX.corpus t scan corpus.1).keys.Perm ((List.range (considered d).length).map (fun n : Nat => Val.int ((n + 1 : Nat) : Int))) := by
    rw [List.perm_ext_iff_of_nodup hs.keys (List.nodup_range.map (fun a b h => by simpa using h))]
    intro k
    rw [hkeys]
    simp only [List.mem_map, List.mem_range]
    constructor
    · rintro ⟨i, r, h1, rfl⟩; exact ⟨i, (List.getElem?_eq_some_iff.1 h1).1, rfl⟩
    · rintro ⟨i, h1, rfl⟩; exact ⟨i, _, List.getElem?_eq_getElem h1, rfl⟩
  obtain ⟨a1, a2, a3, -, a5⟩ := any_to_graph hs cfg (hi _) hkne s hf hno f hu luck hscore hshuffle args confirm hm hn hit hk hfields
    rd visitC hvC visit hv completed hcomp topK includeField
  obtain ⟨-, -, -, -, o2, i3, -, -, chosen, -, o4, -⟩ := any_modelled hs cfg (hi _) hkne s hf hno f hu
    luck hscore hshuffle args confirm hm hn hit hk hfields
  obtain ⟨g, g1, g2⟩ := a5 (.inr (by
    rintro fl v c ⟨r, hr1, rfl, rfl, hr2⟩
    obtain ⟨x, hx, e1, e2, -⟩ := (o4 r.fid).1 (by rw [hr2]; rfl)
    have hxr : x = r := List.inj_on_of_nodup_map o2.featureIds hx hr1 e1
    subst hxr
    rw [o2.counts x hx] at e2
    obtain ⟨n, hn'⟩ := Finset.card_pos.1 (show 0 < x.docs.card by omega)
    obtain ⟨k, hk1, hk2⟩ := (i3 x hx n).1 hn'
    obtain ⟨i, row, h1, rfl⟩ := (hkeys k).1 (List.mem_of_getElem? hk1)
    obtain ⟨w, h2, -⟩ := (hcont i row h1 _ _).1 hk2
    exact ⟨w, h2⟩))
  refine ⟨hadd, a1, a2, a3, g, g1, ?_⟩
  refine modelGraph_congr _ _ _ _ (by simp) ?_ _ _ _ _ _ (modelGraph_perm _ hperm _ _ _ _ _ g2)
  intro i a b ha hb fl v
  rw [List.getElem?_map, List.getElem?_range (List.getElem?_eq_some_iff.1 hb).1] at ha
  simp only [Option.map_some, Option.some.injEq] at ha
  rw [← ha]
  exact hcont i b hb fl v

/-- The whole run on the sample dump, with labels that leave out the fields. -/
example :
    let indexed := Pipeline.indexSx fieldOps List.reverse ⟨2, 2, true⟩ demoSchedule (Pipeline.addSite sampleDump "site" {}).1 File.empty
    let modelled := Pipeline.model demoLuck { clusters := some 2, minDocs := 1 } false indexed.1
    ∃ g, (Pipeline.exportGraph (σ := Rat) id id List.reverse List.reverse 5 false modelled.1).2 = .ok g := by
  intro indexed modelled
  obtain ⟨-, -, -, -, g, h, -⟩ := dump_to_graph (σ := Rat) fieldOps rfl List.reverse List.reverse_perm sampleDump "site" sampleDump_tidy
    sampleDump_readable (by decide +kernel) ⟨2, 2, true⟩ demoSchedule
    demo_fair (fun _ => rfl) File.empty (.inl ⟨rfl, rfl, rfl⟩) demoLuck rfl (fun _ => .refl _) { clusters := some 2, minDocs := 1 } false
    (.inl rfl) (by intro k hk; cases hk; decide) (by decide) (by decide) (by decide) (by decide) id id (fun _ => .refl _)
    List.reverse List.reverse_perm List.reverse List.reverse_perm 5 false
  exact ⟨g, h⟩

/-- A file that is not an index. -/
example : (Pipeline.exportGraph (σ := Rat) id id id id 5 true File.empty).2 = .error .valueError := by
  rw [graph_refuses _ _ _ _ _ _ _ (by decide)]

end Hyperreal.Props
