import Verif.Props.PipelineSites

/-!
# Indexing a corpus again, under an older model (C86)

The documents have changed since the model was made; `index` is run again and the result is served.
-/

namespace Hyperreal.Props
open Atomic Spec Cli Migrate Web Serve
open Spec.Page (Unmarking Finished nodes postNodes)

variable {int : String → Option Int} {σ : Type} [LinearOrder σ]

theorem assign_of_model {a b : DB} (h : b.fc.map (fun r => (r.fid, r.cid, r.pinned)) = a.fc.map (fun r => (r.fid, r.cid, r.pinned)))
    (fid : Nat) : assign b fid = assign a fid := by
  have key : ∀ l : List FCRow, (l.find? (fun r => r.fid = fid)).map (·.cid) =
      ((l.map (fun r => (r.fid, r.cid, r.pinned))).find? (fun x => x.1 = fid)).map (·.2.1) := by
    intro l
    rw [List.find?_map, Option.map_map]
    rfl
  unfold assign
  rw [key, key, h]

/-- Indexing keeps the values of the model in their clusters. -/
theorem reindexed_values {old new : DB} (ho : Wellformed old) (hn : Wellformed new) (h : Reindexed old new) (fl : String) (x : Val) (c : Int) :
    ValueIn new fl x c ↔ ValueIn old fl x c := by
  have ha := assign_of_model h.model
  constructor
  · rintro ⟨r, hr, rfl, rfl, hc⟩
    rw [ha] at hc
    obtain ⟨y, hy, e1, e2⟩ := (assign_some_iff ho _ _).1 hc
    obtain ⟨z, hz, e3⟩ := ho.knownFeature y hy
    obtain ⟨r', hr', k1, k2, k3⟩ := h.kept z hz
    have : r' = r := List.inj_on_of_nodup_map hn.featureIds hr' hr (by rw [k1, e3.1, e1])
    subst this
    exact ⟨z, hz, k2.symm, k3.symm, by rw [← k1]; exact hc⟩
  · rintro ⟨r, hr, rfl, rfl, hc⟩
    obtain ⟨r', hr', k1, k2, k3⟩ := h.kept r hr
    exact ⟨r', hr', k2, k3, by rw [ha, k1]; exact hc⟩

/-- Index again and serve, on any corpus. -/
theorem any_later {corpus : Corpus} {content : Val → Features} (hs : Serves corpus content) (cfg : IndexCfg)
    (hi : Indexable corpus content cfg.positions)
    (hne : corpus.keys ≠ []) (s : Schedule) (hf : Fair s) (hno : ∀ i, s.fault i = none) (f : File) (hu : Usable f)
    (hsize : ∀ c, (featuresIn f.data c).length ≤ 2 ^ 62)
    (hint : ReadsNumbers int) (backing : Corpus) (render : List Val → Except Err (List (Val × String))) (shown : Val → String)
    (hrender : ∀ ks, (∀ k ∈ ks, k ∈ corpus.keys) → render ks = .ok (ks.map (fun k => (k, shown k))))
    (v : Visit σ) (hw : FairWeb v.web) (hp : Draws v.web.pick) :
    let indexed := Pipeline.onIndex f (indexCall corpus cfg s)
    let connect : Except Err (Option Backing) := .ok (some (backing, some render))
    let get := fun url => follow int connect indexed.1 { v with request := .get url }
    indexed.2 = .ok () ∧ Servable indexed.1 ∧ Current indexed.1 ∧
    (∀ fl x c, ValueIn indexed.1.data fl x c ↔ ValueIn f.data fl x c) ∧
    (∀ url n, (get url n).1.data = indexed.1.data) ∧
    ((∃ c fl x, ValueIn f.data fl x c) → ∃ p L, (get "/index/0" 2).2 = .index p ∧ p.clusters = .plain L ∧
      (L.map (·.1)).Nodup ∧ ∀ c, c ∈ L.map (·.1) ↔ ∃ fl x, ValueIn f.data fl x c) ∧
    ∀ c, (∃ fl x, ValueIn f.data fl x c) → ∃ p, (get ("/index/0/cluster/" ++ toString c) 1).2 = .cluster p ∧
      IsLaterPage (HasValue content) corpus.keys id shown f.data c 30 p := by
  intro indexed connect get
  obtain ⟨b, -, -, -, hset, -, happ, -⟩ := usable_opens f hu
  have hidle : Idle (Conn.fresh f.data) f.data := fresh_idle _
  have hok := index_succeeds hidle hset hs hi hf hne hno
  obtain ⟨-, -, -, new', n1, n2, ⟨n3, n4, -⟩, -⟩ := index_success hidle (DB.Settled.toPending hset) hs hf hok
  obtain ⟨new, i1, i2, i3, i4, i5, -⟩ := index_any_command hs cfg hi hne s hf hno f hu
  have hnew : new' = new := by
    have := onIndex_usable f hu (indexCall corpus cfg s)
    rw [i1] at this
    have h2 := congrArg (fun x => x.1.data) this
    dsimp only at h2
    rw [h2]
    exact n1.committed.symm
  subst hnew
  have hindexed : indexed = ({ opened Faults.none f with data := new' }, .ok ()) := i1
  have hd : indexed.1.data = new' := by rw [hindexed]
  have hre : Reindexed f.data new' := by
    obtain ⟨a, b, c⟩ := reindexed_preserves (corpus := corpus) (cfg := cfg) (s := s) hset.toWellformed
    exact ⟨by rw [n3]; exact a, by rw [n3]; exact b, by rw [n4]; exact c⟩
  have hval : ∀ fl x c, ValueIn new' fl x c ↔ ValueIn f.data fl x c := reindexed_values hset.toWellformed n2.toWellformed hre
  have hcur : Current indexed.1 := by
    rcases usable_with f hu new' n2 with ⟨-, -, h3⟩ | ⟨h1, -⟩
    · exfalso
      obtain ⟨k, hk0⟩ := List.exists_mem_of_ne_nil _ hne
      obtain ⟨d, hd⟩ := List.getElem?_of_mem hk0
      have := (i5 d k).2 hd
      rw [show new' = {} from h3] at this
      cases this
    · rw [hindexed]; exact h1
  have hserv : Servable indexed.1 := ⟨by rw [hindexed]; simp [isIndexDb, magicId, happ], .inl ⟨hcur, by rw [hd]; exact n2⟩⟩
  have hsz : ∀ c, (featuresIn indexed.1.data c).length ≤ 2 ^ 62 := by
    intro c
    have : (featuresIn new' c).Perm (featuresIn f.data c) := by
      rw [List.perm_ext_iff_of_nodup (featuresIn_nodup n2.toWellformed c) (featuresIn_nodup hset.toWellformed c)]
      intro fid
      rw [mem_featuresIn n2.toWellformed, mem_featuresIn hset.toWellformed, assign_of_model hre.model]
    rw [hd, this.length_eq]
    exact hsize c
  obtain ⟨d1, d2, d3⟩ := described_later (int := int) hint hs.keys indexed.1 hserv hcur (by rw [hd]; exact i3) (by rw [hd]; exact i5)
    hsz backing render shown hrender v hw hp
  simp only [hd, hval] at d1 d2 d3
  refine ⟨by rw [hindexed], hserv, hcur, by rw [hd]; exact hval, by rw [hd]; exact d1, d2, fun c hc => ?_⟩
  obtain ⟨p, p1, ⟨q1, q2, q3, q4, q5⟩, -⟩ := d3 c hc
  simp only [hval] at q2 q4 q5
  exact ⟨p, p1, q1, q2, q3, q4, q5⟩

/-- The page in terms of the documents that the keys stand for. -/
theorem later_page_of_keys {α : Type} {shows : Val → String → Val → Prop} {shows' : α → String → Val → Prop} {keys : List Val}
    {docs : List α} {key : α → Val} {shown : Val → String} {render : α → String} {db : DB} {c : Int} {n : Nat}
    {p : ClusterPage σ} (hperm : keys.Perm (docs.map key)) (hshows : ∀ d ∈ docs, ∀ fl x, shows (key d) fl x ↔ shows' d fl x)
    (hrender : ∀ d ∈ docs, shown (key d) = render d) (h : IsLaterPage shows keys id shown db c n p) :
    IsLaterPage shows' docs key render db c n p := by
  classical
  obtain ⟨h1, ⟨h2, h2'⟩, ht, h3, rs, h4, h5, h6, h7⟩ := h
  refine ⟨h1, ⟨h2, fun fl x => (h2' fl x).trans (and_congr_right (fun _ => or_congr_right ?_))⟩, ht, ?_, rs, h4, h5, h6, ?_⟩
  · constructor
    · rintro ⟨k, hk, hv⟩
      obtain ⟨d, hd, rfl⟩ := List.mem_map.1 (hperm.mem_iff.1 hk)
      exact ⟨d, hd, (hshows d hd fl x).1 hv⟩
    · rintro ⟨d, hd, hv⟩
      exact ⟨key d, hperm.mem_iff.2 (List.mem_map.2 ⟨d, hd, rfl⟩), (hshows d hd fl x).2 hv⟩
  · rw [h3, howMany_perm _ hperm, howMany, List.countP_map, howMany]
    apply List.countP_congr
    intro d hd
    simp only [Function.comp, decide_eq_true_eq]
    constructor
    · rintro ⟨fl, x, a, b⟩; exact ⟨fl, x, (hshows d hd fl x).1 a, b⟩
    · rintro ⟨fl, x, a, b⟩; exact ⟨fl, x, (hshows d hd fl x).2 a, b⟩
  · intro r hr
    obtain ⟨k, hk, ⟨fl, x, a, b⟩, e1, e2⟩ := h7 r hr
    obtain ⟨d, hd, rfl⟩ := List.mem_map.1 (hperm.mem_iff.1 hk)
    exact ⟨d, hd, ⟨fl, x, (hshows d hd fl x).1 a, b⟩, e1, by rw [e2]; exact hrender d hd⟩

/-- **C86.** Replacing the documents under a model.  On an index file with any model, made from whatever documents, `create` with
another text file, `index` and `serve`, without a new model: all succeed, the values of the model stay in their clusters, the
overview lists all clusters, and the page of each cluster is about the lines of the new file: it counts those that have a token
of the cluster and shows 30 of them, or all if there are fewer; of the tokens it lists those that still occur, or all if no line
has any. -/
theorem text_file_later (space : Char → Bool) (limit : Nat) (ls : List Line) (hls : ∀ l ∈ ls, l.Ok limit)
    (file : List Char) (hfile : file = ls.flatMap Line.render ∨ file ++ ['\n'] = ls.flatMap Line.render)
    (hne : documents space ls ≠ []) (old : PlainText.Db) (f : File) (hu : Usable f)
    (hsize : ∀ c, (featuresIn f.data c).length ≤ 2 ^ 62) (tokens : String → List String)
    (cfg : IndexCfg) (s : Schedule) (hf : Fair s) (hno : ∀ i, s.fault i = none)
    (hint : ReadsNumbers int) (v : Visit σ) (hw : FairWeb v.web) (hp : Draws v.web.pick) :
    let docs := numbered (documents space ls)
    let corpus := Pipeline.create space limit file old
    let indexed := Pipeline.indexPlain tokens cfg s corpus.1 f
    let get := fun url => follow int (plain tokens corpus.1) indexed.1 { v with request := .get url }
    let shows := fun (d : Nat × String) (field : String) (x : Val) => field = "text" ∧ ∃ t ∈ tokens d.2, x = .text t
    corpus.2 = .ok () ∧ indexed.2 = .ok () ∧ Servable indexed.1 ∧ Current indexed.1 ∧
    (∀ fl x c, ValueIn indexed.1.data fl x c ↔ ValueIn f.data fl x c) ∧
    (∀ url n, (get url n).1.data = indexed.1.data) ∧
    ((∃ c fl x, ValueIn f.data fl x c) → ∃ p L, (get "/index/0" 2).2 = .index p ∧ p.clusters = .plain L ∧
      (L.map (·.1)).Nodup ∧ ∀ c, c ∈ L.map (·.1) ↔ ∃ fl x, ValueIn f.data fl x c) ∧
    ∀ c, (∃ fl x, ValueIn f.data fl x c) → ∃ p, (get ("/index/0/cluster/" ++ toString c) 1).2 = .cluster p ∧
      IsLaterPage shows docs (fun d => .int d.1) (·.2) f.data c 30 p := by
  intro docs corpus indexed get shows
  obtain ⟨c1, c2⟩ := create_reads_partial space limit ls hls file hfile (Conn.fresh old) old ⟨rfl, rfl, rfl, rfl, rfl, rfl⟩
  have hcorpus : corpus = (some docs, .ok ()) := by
    show Pipeline.create space limit file old = _
    unfold Pipeline.create
    cases hx : plaintextCreate space limit (fun _ => none) file (Conn.fresh old) with
    | mk c r =>
      rw [hx] at c1 c2
      dsimp only at c1 c2
      rw [c1]
      dsimp only
      congr 1
      exact c2.committed
  have hnk : (docs.map (·.1)).Nodup := numbered_keys _
  obtain ⟨hs, hind⟩ := plain_text_serves tokens docs hnk
  have hdocs : docs ≠ [] := by
    intro h
    apply hne
    have := congrArg List.length h
    simpa [docs, numbered] using this
  have hdoc : ∀ d ∈ docs, PlainText.docOf (some docs) d.1 = .ok d.2 := fun d hd => PlainText.docOf_unique _ hnk _ hd
  have hkeys : (PlainText.corpus tokens docs).keys = docs.map (fun d => Val.int d.1) := rfl
  have hshows : ∀ d ∈ docs, ∀ fl x, HasValue (plainContent tokens docs) (.int d.1) fl x ↔ shows d fl x := by
    intro d hd fl x
    have : plainContent tokens docs (.int d.1) = PlainText.features tokens d.2 := by
      unfold plainContent PlainText.indexed
      have : PlainText.asKey (Val.int (d.1 : Int)) = some d.1 := rfl
      rw [this]
      dsimp only
      rw [hdoc d hd]
    unfold HasValue
    rw [this]
    constructor
    · rintro ⟨vs, h1, h2⟩
      simp only [PlainText.features, List.mem_singleton, Prod.mk.injEq] at h1
      obtain ⟨rfl, rfl⟩ := h1
      obtain ⟨t, ht, e⟩ := List.mem_map.1 h2
      cases e
      exact ⟨rfl, t, ht, rfl⟩
    · rintro ⟨rfl, t, ht, rfl⟩
      exact ⟨.seq ((tokens d.2).map (fun t => some (Val.text t))), by simp [PlainText.features], List.mem_map.2 ⟨t, ht, rfl⟩⟩
  have hindexed : indexed = Pipeline.onIndex f (indexCall (PlainText.corpus tokens docs) cfg s) := by
    show Pipeline.indexPlain tokens cfg s corpus.1 f = _
    rw [hcorpus]
    rfl
  have hget : ∀ url, get url = follow int (.ok (some (PlainText.corpus tokens docs, some (plainHtml (some docs))))) indexed.1 { v with request := .get url } := by
    intro url
    show follow int (plain tokens corpus.1) indexed.1 _ = _
    rw [hcorpus]
    rfl
  have hone : ∀ k ∈ (PlainText.corpus tokens docs).keys, ∃ d ∈ docs, k = .int d.1 := by
    intro k hk'
    obtain ⟨d, hd, rfl⟩ := List.mem_map.1 hk'
    exact ⟨d, hd, rfl⟩
  let shown : Val → String := fun k => match PlainText.docOf (some docs) ((PlainText.asKey k).getD 0) with
    | .ok t => t
    | .error _ => ""
  have hshown : ∀ d ∈ docs, shown (.int d.1) = d.2 := by
    intro d hd
    show (match PlainText.docOf (some docs) ((some d.1).getD 0) with | .ok t => t | .error _ => "") = _
    rw [Option.getD_some, hdoc d hd]
  obtain ⟨a1, a2, a3, a4, a5, a6, a7⟩ := any_later (int := int) hs cfg (hind _) (by rw [hkeys]; simpa using hdocs) s hf hno f hu hsize hint
    (PlainText.corpus tokens docs) (plainHtml (some docs)) shown (by
      intro ks hks
      unfold plainHtml
      apply mapM_all_ok
      intro k hk'
      obtain ⟨d, hd, rfl⟩ := hone k (hks k hk')
      have : PlainText.asKey (Val.int (d.1 : Int)) = some d.1 := rfl
      rw [this]
      dsimp only
      rw [hdoc d hd, hshown d hd]
      rfl) v hw hp
  rw [← hindexed] at a1 a2 a3 a4 a5 a6 a7
  simp only [hget]
  refine ⟨by rw [hcorpus], a1, a2, a3, a4, a5, a6, ?_⟩
  intro c hc
  obtain ⟨p, p1, p2⟩ := a7 c hc
  rw [hkeys] at p2
  exact ⟨p, p1, later_page_of_keys (.refl _) hshows hshown p2⟩

/-- **C86** for the dumps of any number of sites, for example after adding another site to the corpus. -/
theorem sites_later (t : SX.TextOps) (h0 : t.tokens "" = []) (scan : List SX.Post → List SX.Post)
    (hscan : ∀ l, (scan l).Perm l) (ds : List (SX.Dump × String)) (hds : SitesReadable t ds) (hne : allPosts ds ≠ [])
    (cfg : IndexCfg) (s : Schedule) (hf : Fair s) (hno : ∀ i, s.fault i = none) (f : File) (hu : Usable f)
    (hsize : ∀ c, (featuresIn f.data c).length ≤ 2 ^ 62)
    (order : List String → List String) (ho : ∀ l, (order l).Perm l)
    (hint : ReadsNumbers int) (v : Visit σ) (hw : FairWeb v.web) (hp : Draws v.web.pick) :
    let docs := (allPosts ds).zipIdx
    let corpus := Pipeline.addSites ds {}
    let indexed := Pipeline.indexSx t scan cfg s corpus.1 f
    let get := fun url' => follow int (stackExchange t scan order corpus.1) indexed.1 { v with request := .get url' }
    let shows := fun (x : SitePost × Nat) (field : String) (y : Val) => ∃ w, y = .text w ∧ SxShows t x.1.doc field w
    corpus.2 = .ok () ∧ indexed.2 = .ok () ∧ Servable indexed.1 ∧ Current indexed.1 ∧
    (∀ fl x c, ValueIn indexed.1.data fl x c ↔ ValueIn f.data fl x c) ∧
    (∀ url n, (get url n).1.data = indexed.1.data) ∧
    ((∃ c fl x, ValueIn f.data fl x c) → ∃ p L, (get "/index/0" 2).2 = .index p ∧ p.clusters = .plain L ∧
      (L.map (·.1)).Nodup ∧ ∀ c, c ∈ L.map (·.1) ↔ ∃ fl x, ValueIn f.data fl x c) ∧
    ∃ html : SitePost × Nat → String, (∀ x ∈ docs, (∃ fs, html x = String.ofList (SX.postHtml order fs) ∧ RowShows x.1.dump x.1.url x.1.row (SX.tableRow order fs)) ∧
        (Unmarking x.1.dump x.1.url x.1.row → Finished (html x).toList ∧
          nodes (html x).toList = postNodes x.1.dump x.1.url x.1.row (order (tagsIn x.1.dump (x.1.row.parent.or x.1.row.id))))) ∧
      ∀ c, (∃ fl x, ValueIn f.data fl x c) → ∃ p, (get ("/index/0/cluster/" ++ toString c) 1).2 = .cluster p ∧
        IsLaterPage shows docs (fun x => .int ((x.2 + 1 : Nat) : Int)) html f.data c 30 p := by
  intro docs corpus indexed get shows
  obtain ⟨hadd, hs, hi, hkne, hkeys, hcont, -⟩ := sites_corpus t h0 scan hscan ds hds hne id (fun l => .refl _)
  set content := fun k => okOr (SX.indexed t (Pipeline.addSites ds {}).1 k) with hcontent
  have hdoc : ∀ x, x ∈ docs ↔ (allPosts ds)[x.2]? = some x.1 := fun x => List.mem_zipIdx_iff_getElem?
  have hperm : (SX.corpus t scan corpus.1).keys.Perm (docs.map (fun x => Val.int ((x.2 + 1 : Nat) : Int))) := by
    have hnd : (docs.map (fun x => Val.int ((x.2 + 1 : Nat) : Int))).Nodup := by
      have : docs.map (fun x => Val.int ((x.2 + 1 : Nat) : Int)) = (docs.map (·.2)).map (fun n : Nat => Val.int ((n + 1 : Nat) : Int)) := by
        rw [List.map_map]; rfl
      rw [this, show docs.map (·.2) = List.range' 0 (allPosts ds).length from List.zipIdx_map_snd 0 _]
      exact List.Nodup.map (fun a b h => by simpa using h) List.nodup_range'
    rw [List.perm_ext_iff_of_nodup hs.keys hnd]
    intro k
    rw [hkeys]
    simp only [List.mem_map]
    constructor
    · rintro ⟨i, r, h1, rfl⟩; exact ⟨(r, i), (hdoc _).2 h1, rfl⟩
    · rintro ⟨⟨r, i⟩, h1, rfl⟩; exact ⟨i, r, (hdoc _).1 h1, rfl⟩
  have hshows : ∀ x ∈ docs, ∀ fl y, HasValue content (.int ((x.2 + 1 : Nat) : Int)) fl y ↔ shows x fl y := fun x hx fl y =>
    hcont x.2 x.1 ((hdoc x).1 hx) fl y
  have hall : ∀ n : Nat, ∃ fs, ∀ r, (allPosts ds)[n]? = some r → SX.renderedFields corpus.1 (n + 1) = .ok fs ∧
      FieldsShow r.dump r.url r.row fs := by
    intro n
    cases hn' : (allPosts ds)[n]? with
    | none => exact ⟨(⟨0, "", none, none, none, none, none, "", none, none, none, none⟩, [], []), fun r h => by cases h⟩
    | some r =>
      obtain ⟨fs, e1, e2⟩ := sites_rendered t ds hds n r hn'
      refine ⟨fs, fun r' h' => ?_⟩
      cases h'
      exact ⟨e1, e2⟩
  choose g hg using hall
  obtain ⟨a1, a2, a3, a4, a5, a6, a7⟩ := any_later (int := int) hs cfg (hi _) hkne s hf hno f hu hsize hint
    (SX.corpus t scan corpus.1) (sxHtml order corpus.1) (fun k => String.ofList (SX.postHtml order (g ((SX.asKey k).getD 0 - 1)))) (by
      intro ks hks
      unfold sxHtml
      apply mapM_all_ok
      intro k hk'
      obtain ⟨n, r, h1, rfl⟩ := (hkeys k).1 (hks k hk')
      have : SX.asKey (Val.int ((n + 1 : Nat) : Int)) = some (n + 1) := rfl
      rw [this]
      dsimp only
      rw [(hg n r h1).1]
      rfl) v hw hp
  refine ⟨hadd, a1, a2, a3, a4, a5, a6, fun x => String.ofList (SX.postHtml order (g x.2)), ?_, ?_⟩
  · intro x hx
    have hshow := (hg x.2 x.1 ((hdoc x).1 hx)).2
    refine ⟨⟨g x.2, rfl, rowShows_of_fields hshow order ho⟩, fun hu => ?_⟩
    rw [String.toList_ofList]
    exact post_read hshow hu order ho
  · intro c hc
    obtain ⟨p, p1, p2⟩ := a7 c hc
    exact ⟨p, p1, later_page_of_keys hperm hshows (fun x _ => rfl) p2⟩

/-- **C86** for a collection of tweets, for example after more have been collected. -/
theorem tweets_later (t : TW.TextOps) (template : TW.Doc → String) (tw : TW.Db) (hr : TwReadable t tw)
    (hver : ∃ v, tw.version = some v ∧ 15 ≤ v) (hne : tw.direct ≠ [])
    (cfg : IndexCfg) (hpos : cfg.positions = true → ∀ x ∈ collected tw, NothingMissing tw x)
    (s : Schedule) (hf : Fair s) (hno : ∀ i, s.fault i = none) (f : File) (hu : Usable f)
    (hsize : ∀ c, (featuresIn f.data c).length ≤ 2 ^ 62)
    (hint : ReadsNumbers int) (v : Visit σ) (hw : FairWeb v.web) (hp : Draws v.web.pick) :
    let docs := collected tw
    let indexed := Pipeline.indexTw t cfg s tw f
    let get := fun url' => follow int (twittersphere t template tw) indexed.1 { v with request := .get url' }
    let shows := TwShows t tw
    indexed.2 = .ok () ∧ Servable indexed.1 ∧ Current indexed.1 ∧
    (∀ fl x c, ValueIn indexed.1.data fl x c ↔ ValueIn f.data fl x c) ∧
    (∀ url n, (get url n).1.data = indexed.1.data) ∧
    ((∃ c fl x, ValueIn f.data fl x c) → ∃ p L, (get "/index/0" 2).2 = .index p ∧ p.clusters = .plain L ∧
      (L.map (·.1)).Nodup ∧ ∀ c, c ∈ L.map (·.1) ↔ ∃ fl x, ValueIn f.data fl x c) ∧
    ∃ html : TW.Tweet → String, (∀ x ∈ docs, ∃ doc, TW.docOf t tw x.id = .ok doc ∧ doc.tweet = x ∧ html x = template doc) ∧
      ∀ c, (∃ fl x, ValueIn f.data fl x c) → ∃ p, (get ("/index/0/cluster/" ++ toString c) 1).2 = .cluster p ∧
        IsLaterPage shows docs (fun x => .int x.id) html f.data c 30 p := by
  intro docs indexed get shows
  obtain ⟨hs, hkeys⟩ := tw_serves t tw hr
  set content := fun k => okOr (TW.indexed t tw k) with hcontent
  have hshow : ∀ x ∈ collected tw, ∀ fl v, HasValue content (.int x.id) fl v ↔ TwShows t tw x fl v := by
    intro x hx fl v
    obtain ⟨g, hg, hg'⟩ := tw_shows t tw hr x (List.mem_filter.1 hx).1
    rw [← hg' fl v, HasValue]
    show (∃ vs, (fl, vs) ∈ okOr (TW.indexed t tw (.int x.id)) ∧ _) ↔ _
    rw [okOr_eq hg]
  have hkey : ∀ k, k ∈ (TW.corpus t tw).keys ↔ ∃ x ∈ collected tw, k = .int x.id := by
    intro k
    rw [hkeys]
    constructor
    · rintro ⟨x, h1, h2, rfl⟩; exact ⟨x, List.mem_filter.2 ⟨h1, by simpa using h2⟩, rfl⟩
    · rintro ⟨x, h1, rfl⟩
      obtain ⟨h2, h3⟩ := List.mem_filter.1 h1
      exact ⟨x, h2, by simpa using h3, rfl⟩
  have hkne : (TW.corpus t tw).keys ≠ [] := by
    obtain ⟨i, l, e⟩ := List.exists_cons_of_ne_nil hne
    have hi : i ∈ tw.direct := by rw [e]; simp
    obtain ⟨x, hx, rfl⟩ := hr.stored i hi
    exact List.ne_nil_of_mem ((hkeys _).2 ⟨x, hx, hi, rfl⟩)
  have hi : Indexable (TW.corpus t tw) content cfg.positions := by
    refine (tw_indexable t tw hr cfg.positions).2 ?_
    rintro h i hi' x hx rfl
    exact hpos h x (List.mem_filter.2 ⟨hx, by simpa using hi'⟩)
  have hperm : (TW.corpus t tw).keys.Perm ((collected tw).map (fun x => Val.int x.id)) := by
    rw [List.perm_ext_iff_of_nodup hs.keys (by
      have : ((collected tw).map (fun x => Val.int x.id)) = ((collected tw).map (·.id)).map (fun i : Nat => Val.int i) := by
        rw [List.map_map]; rfl
      rw [this]
      exact (hr.tweetIds.sublist (List.Sublist.map _ List.filter_sublist)).map (fun a b h => by simpa using h))]
    intro k
    rw [hkey]
    simp only [List.mem_map, eq_comm]
  have hindexed : indexed = Pipeline.onIndex f (indexCall (TW.corpus t tw) cfg s) := by
    show Pipeline.indexTw t cfg s tw f = _
    rw [Pipeline.indexTw, (twittersphere_opens_iff tw).2 hver]
  have hdocs : ∀ n : Nat, ∃ doc, ∀ x ∈ collected tw, x.id = n → TW.docOf t tw n = .ok doc ∧ doc.tweet = x := by
    intro n
    by_cases hx : ∃ x ∈ collected tw, x.id = n
    · obtain ⟨x, hx, rfl⟩ := hx
      have hx' := (List.mem_filter.1 hx).1
      obtain ⟨g, hg, -⟩ := tw_shows t tw hr x hx'
      have h0 : TW.indexed t tw (.int x.id) = (match TW.docOf t tw x.id with | .error e => .error e | .ok d => TW.features t d) := rfl
      rw [h0] at hg
      cases hd : TW.docOf t tw x.id with
      | error e => rw [hd] at hg; cases hg
      | ok doc =>
        refine ⟨doc, fun y hy hyx => ?_⟩
        have hxy : y = x := List.inj_on_of_nodup_map hr.tweetIds (List.mem_filter.1 hy).1 hx' hyx
        subst hxy
        refine ⟨rfl, ?_⟩
        unfold TW.docOf at hd
        cases hh : (tw.tweets.filter (fun z => z.id = y.id)).head? with
        | none => rw [hh] at hd; cases hd
        | some z =>
          rw [hh] at hd
          dsimp only at hd
          have hz := List.mem_filter.1 (List.mem_of_head? hh)
          have hzy : z = y := List.inj_on_of_nodup_map hr.tweetIds hz.1 hx' (by simpa using hz.2)
          subst hzy
          split at hd
          · cases hd
          · split at hd
            · cases hd
            · cases hd; rfl
    · by_cases hany : ∃ x, x ∈ collected tw
      · obtain ⟨x, hx'⟩ := hany
        obtain ⟨g, hg, -⟩ := tw_shows t tw hr x (List.mem_filter.1 hx').1
        have h0 : TW.indexed t tw (.int x.id) = (match TW.docOf t tw x.id with | .error e => .error e | .ok d => TW.features t d) := rfl
        rw [h0] at hg
        cases hd : TW.docOf t tw x.id with
        | error e => rw [hd] at hg; cases hg
        | ok doc => exact ⟨doc, fun y hy h => absurd ⟨y, hy, h⟩ hx⟩
      · obtain ⟨k, l, e⟩ := List.exists_cons_of_ne_nil hkne
        obtain ⟨x, hx', -⟩ := (hkey k).1 (by rw [e]; simp)
        exact absurd ⟨x, hx'⟩ hany
  choose g hg using hdocs
  have hget : ∀ url', get url' = follow int (.ok (some (TW.corpus t tw, some (twHtml t template tw)))) indexed.1 { v with request := .get url' } := by
    intro url'
    show follow int (twittersphere t template tw) indexed.1 _ = _
    rw [twittersphere, (twittersphere_opens_iff tw).2 hver]
  obtain ⟨a1, a2, a3, a4, a5, a6, a7⟩ := any_later (int := int) hs cfg hi hkne s hf hno f hu hsize hint
    (TW.corpus t tw) (twHtml t template tw) (fun k => template (g ((TW.asKey k).getD 0))) (by
      intro ks hks
      unfold twHtml
      apply mapM_all_ok
      intro k hk'
      obtain ⟨x, hx, rfl⟩ := (hkey k).1 (hks k hk')
      have : TW.asKey (Val.int (x.id : Int)) = some x.id := rfl
      rw [this]
      dsimp only
      rw [(hg x.id x hx rfl).1]
      rfl) v hw hp
  rw [← hindexed] at a1 a2 a3 a4 a5 a6 a7
  simp only [hget]
  refine ⟨a1, a2, a3, a4, a5, a6, fun x => template (g x.id), ?_, ?_⟩
  · intro x hx
    exact ⟨g x.id, (hg x.id x hx rfl).1, (hg x.id x hx rfl).2, rfl⟩
  · intro c hc
    obtain ⟨p, p1, p2⟩ := a7 c hc
    exact ⟨p, p1, later_page_of_keys hperm hshow (fun x _ => rfl) p2⟩

/-! ## Examples -/

/-- An index of an earlier text file, with a model: the tokens `a` and `y` in the cluster 1, `x` in the cluster 2. -/
def earlierIndex : DB :=
  { docKeys := [(0, .int 1), (1, .int 2)]
    features := [⟨1, "text", .text "a", 2, {0, 1}⟩, ⟨2, "text", .text "y", 1, {1}⟩, ⟨3, "text", .text "x", 1, {0}⟩]
    fieldSummary := [] }

theorem earlierIndex_settled : Settled earlierIndex where
  featureIds := by decide
  featureKeys := by decide
  counts := by decide
  oneCluster := by decide
  clusterIds := by decide
  knownFeature := by simp [earlierIndex]
  knownCluster := by simp [earlierIndex]
  summaries := by simp [earlierIndex]
  nothingPending := rfl

def earlierFile : File :=
  { opened Faults.none File.empty with data := (runOps [(.create [1, 2], none), (.create [3], none)] (Conn.fresh earlierIndex)).committed }

theorem earlierFile_usable : Usable earlierFile := by
  obtain ⟨-, -, c, -, -⟩ := open_creates File.empty rfl rfl rfl
  exact .inr ⟨⟨c.version, c.applicationId, c.tables, c.objects, c.obsolete, c.window⟩,
    (model_always_settled _ (by intro op h; fin_cases h <;> trivial) _ earlierIndex_settled).1⟩

theorem earlierFile_size (c : Int) : (featuresIn earlierFile.data c).length ≤ 2 ^ 62 := by
  unfold featuresIn
  rw [List.length_map]
  refine le_trans (List.length_filter_le _ _) ?_
  decide +kernel

theorem earlierFile_values : ValueIn earlierFile.data "text" (.text "a") 1 ∧ ValueIn earlierFile.data "text" (.text "y") 1 ∧
    ValueIn earlierFile.data "text" (.text "x") 2 := by
  refine ⟨⟨_, (by decide +kernel : (⟨1, "text", .text "a", 2, {0, 1}⟩ : FeatRow) ∈ earlierFile.data.features), rfl, rfl, by decide +kernel⟩,
    ⟨_, (by decide +kernel : (⟨2, "text", .text "y", 1, {1}⟩ : FeatRow) ∈ earlierFile.data.features), rfl, rfl, by decide +kernel⟩,
    ⟨_, (by decide +kernel : (⟨3, "text", .text "x", 1, {0}⟩ : FeatRow) ∈ earlierFile.data.features), rfl, rfl, by decide +kernel⟩⟩

/-- New lines under that model, in which `a` occurs and `x` and `y` do not: the page of the cluster 1 counts the lines with `a` and
lists `a` but not `y`; that of the cluster 2 counts nothing and lists `x`. -/
example (corpus : PlainText.Db × Except Err Unit) (hcorpus : Pipeline.create (· = ' ') 100 (demoLines.flatMap Line.render) none = corpus)
    (indexed : File × Except Err Unit) (hindexed : Pipeline.indexPlain letters ⟨2, 2, true⟩ demoSchedule corpus.1 earlierFile = indexed) :
    let get := fun url => (follow readInt (plain letters corpus.1) indexed.1 (demoVisit (.get url)) 1).2
    (∃ p, get ("/index/0/cluster/" ++ toString (1 : Int)) = .cluster p ∧ 0 < p.total ∧ ("text", Val.text "a") ∈ listedValues p.features ∧
      ("text", Val.text "y") ∉ listedValues p.features) ∧
    (∃ p, get ("/index/0/cluster/" ++ toString (2 : Int)) = .cluster p ∧ ("text", Val.text "x") ∈ listedValues p.features) := by
  obtain ⟨va, vy, vx⟩ := earlierFile_values
  have main := text_file_later (int := readInt) (· = ' ') 100 demoLines demoLines_ok _ (.inl rfl) (by decide +kernel)
    none earlierFile earlierFile_usable earlierFile_size letters ⟨2, 2, true⟩ demoSchedule demo_fair (fun _ => rfl)
    readInt_reads (demoVisit (.get "/")) demoWeb_fair draws_first
  dsimp only at main
  rw [hcorpus, hindexed] at main
  obtain ⟨-, -, -, -, -, -, -, hc⟩ := main
  have hno : ∀ w ∈ ["x", "y"], ¬ ∃ d ∈ numbered (documents (· = ' ') demoLines), ("text" : String) = "text" ∧ ∃ t ∈ letters d.2, Val.text w = .text t := by
    rintro w hw ⟨d, hd, -, t, ht, e⟩
    cases e
    have : ∀ d ∈ numbered (documents (· = ' ') demoLines), "x" ∉ letters d.2 ∧ "y" ∉ letters d.2 := by decide +kernel
    simp only [List.mem_cons, List.not_mem_nil, or_false] at hw
    rcases hw with rfl | rfl
    · exact (this d hd).1 ht
    · exact (this d hd).2 ht
  intro get
  refine ⟨?_, ?_⟩
  · obtain ⟨p, p1, -, ⟨-, p2⟩, -, p3, -⟩ := hc 1 ⟨_, _, va⟩
    have ht : 0 < p.total := by
      rw [p3, howMany, List.countP_pos_iff]
      refine ⟨(1, "b a"), by decide +kernel, ?_⟩
      simp only [decide_eq_true_eq]
      exact ⟨"text", .text "a", ⟨rfl, "a", by decide +kernel, rfl⟩, va⟩
    refine ⟨p, p1, ht, (p2 _ _).2 ⟨va, .inr ⟨(1, "b a"), by decide +kernel, rfl, "a", by decide +kernel, rfl⟩⟩, fun h => ?_⟩
    rcases ((p2 _ _).1 h).2 with h0 | h1
    · omega
    · exact hno "y" (by simp) h1
  · obtain ⟨p, p1, -, ⟨-, p2⟩, -, p3, -⟩ := hc 2 ⟨_, _, vx⟩
    refine ⟨p, p1, (p2 _ _).2 ⟨vx, .inl ?_⟩⟩
    rw [p3, howMany, List.countP_eq_zero]
    intro d hd
    simp only [decide_eq_true_eq]
    rintro ⟨fl, v, ⟨rfl, t, ht, rfl⟩, c, r⟩
    have hall : ∀ r ∈ earlierFile.data.features, assign earlierFile.data r.fid = some 2 → r.value = .text "x" := by decide +kernel
    obtain ⟨rr, hr⟩ := r
    have := hall c rr hr.2.2
    rw [hr.2.1] at this
    cases this
    exact hno "x" (by simp) ⟨d, hd, rfl, "x", ht, rfl⟩

/-- The posts of two sites under that model: its clusters keep their pages. -/
example (corpus : SX.Db × Except Err Unit) (hcorpus : Pipeline.addSites twoSites {} = corpus)
    (indexed : File × Except Err Unit) (hindexed : Pipeline.indexSx fieldOps List.reverse ⟨2, 2, true⟩ demoSchedule corpus.1 earlierFile = indexed) :
    indexed.2 = .ok () ∧ ∃ p, (follow readInt (stackExchange fieldOps List.reverse List.reverse corpus.1) indexed.1
        (demoVisit (.get ("/index/0/cluster/" ++ toString (1 : Int)))) 1).2 = .cluster p ∧ p.cluster = 1 := by
  have main := sites_later (int := readInt) fieldOps rfl List.reverse List.reverse_perm twoSites
    twoSites_readable (by decide +kernel) ⟨2, 2, true⟩ demoSchedule demo_fair (fun _ => rfl) earlierFile earlierFile_usable earlierFile_size
    List.reverse List.reverse_perm readInt_reads (demoVisit (.get "/")) demoWeb_fair draws_first
  dsimp only at main
  rw [hcorpus, hindexed] at main
  obtain ⟨-, h, -, -, -, -, -, html, -, hc⟩ := main
  obtain ⟨p, p1, p2, -⟩ := hc 1 ⟨_, _, earlierFile_values.1⟩
  exact ⟨h, p, p1, p2⟩

/-- Two tweets under that model. -/
example (indexed : File × Except Err Unit) (hindexed : Pipeline.indexTw twOps ⟨2, 2, true⟩ demoSchedule linkedTweets earlierFile = indexed) :
    indexed.2 = .ok () ∧ ∃ p, (follow readInt (twittersphere twOps (fun d => toString d.tweet.id) linkedTweets) indexed.1
        (demoVisit (.get ("/index/0/cluster/" ++ toString (1 : Int)))) 1).2 = .cluster p ∧ p.cluster = 1 := by
  have main := tweets_later (int := readInt) twOps (fun d => toString d.tweet.id) linkedTweets
    linkedTweets_indexable.1 linkedTweets_indexable.2.1 linkedTweets_indexable.2.2.1 ⟨2, 2, true⟩ (fun _ => linkedTweets_indexable.2.2.2.1)
    demoSchedule demo_fair (fun _ => rfl) earlierFile earlierFile_usable earlierFile_size
    readInt_reads (demoVisit (.get "/")) demoWeb_fair draws_first
  dsimp only at main
  rw [hindexed] at main
  obtain ⟨h, -, -, -, -, -, html, -, hc⟩ := main
  obtain ⟨p, p1, p2, -⟩ := hc 1 ⟨_, _, earlierFile_values.1⟩
  exact ⟨h, p, p1, p2⟩

end Hyperreal.Props
