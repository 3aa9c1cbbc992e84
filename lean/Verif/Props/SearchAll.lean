import Verif.Props.Search

/-!
# Searching text files, data dumps and tweets
-/

namespace Hyperreal.Props
open Atomic Spec Cli Migrate Web Serve PlainText
open Spec.Page (Unmarking Finished nodes postNodes)

variable {int : String → Option Int} {σ : Type} [LinearOrder σ]

/-- The index file describes the documents of the corpus, and can be served. -/
structure Described (corpus : Corpus) (content : Val → Features) (f : File) : Prop where
  servable : Servable f
  current : Current f
  feat : ∀ r ∈ f.data.features, ∀ d, d ∈ r.docs ↔ ∃ k, corpus.keys[d]? = some k ∧ HasValue content k r.field r.value
  all : ∀ k ∈ corpus.keys, ∀ fl v, HasValue content k fl v → ∃ r ∈ f.data.features, r.field = fl ∧ r.value = v
  keys : ∀ d k, (d, k) ∈ f.data.docKeys ↔ corpus.keys[d]? = some k
  size : ∀ c, (featuresIn f.data c).length ≤ 2 ^ 62

/-- A corpus of documents, as it is indexed and shown. -/
structure Source {α : Type} (cfg : IndexCfg) (s : Schedule) (connect : Except Err (Option Backing))
    (index : File → File × Except Err Unit) (shows : α → String → Val → Prop) (docs : List α) (key : α → Val) (html : α → String)
    (corpus : Corpus) (content : Val → Features) (render : List Val → Except Err (List (Val × String))) (shown : Val → String) : Prop where
  serves : Serves corpus content
  indexable : Indexable corpus content cfg.positions
  nonempty : corpus.keys ≠ []
  indexes : ∀ f, index f = Pipeline.onIndex f (indexCall corpus cfg s)
  connects : connect = .ok (some (corpus, some render))
  perm : corpus.keys.Perm (docs.map key)
  has : ∀ d ∈ docs, ∀ fl x, HasValue content (key d) fl x ↔ shows d fl x
  looks : ∀ d ∈ docs, shown (key d) = html d
  renders : ∀ ks, (∀ k ∈ ks, k ∈ corpus.keys) → render ks = .ok (ks.map (fun k => (k, shown k)))

/-- Index and model on any corpus. -/
theorem any_described {corpus : Corpus} {content : Val → Features} (hs : Serves corpus content) (cfg : IndexCfg)
    (hi : Indexable corpus content cfg.positions)
    (hne : corpus.keys ≠ []) (s : Schedule) (hf : Fair s) (hno : ∀ i, s.fault i = none) (f : File) (hu : Usable f)
    (vocabulary : List (String × Val)) (hvoc : ∀ k ∈ corpus.keys, ∀ fl v, HasValue content k fl v → (fl, v) ∈ vocabulary)
    (hsize : vocabulary.length ≤ 2 ^ 62)
    (luck : Luck Rat) (hscore : luck.score = exactScorer luck.chance) (hshuffle : ∀ l, (luck.shuffle l).Perm l)
    (args : ModelArgs) (confirm : Bool) (hm : f.data.clusters = [] ∨ (args.restart = true ∧ confirm = true))
    (hn : ∀ k, args.clusters = some k → 0 ≤ k) (hit : 1 ≤ args.iterations) (hk : 1 ≤ args.groupTopK) (hmin : 1 ≤ args.minDocs)
    (hfields : args.fields.Nodup) :
    let indexed := Pipeline.onIndex f (indexCall corpus cfg s)
    let modelled := Pipeline.model luck args confirm indexed.1
    indexed.2 = .ok () ∧ modelled.2 = .done ∧ Described corpus content modelled.1 ∧
    (∀ fl x, (∃ c, ValueIn modelled.1.data fl x c) ↔
      args.minDocs ≤ howMany (fun k => HasValue content k fl x) corpus.keys ∧ (args.fields = [] ∨ fl ∈ args.fields)) := by
  intro indexed modelled
  obtain ⟨hind, hmod, hu2, hid, o2, i3, i4, i5, chosen, ch, o4, -⟩ := any_modelled hs cfg hi hne s hf hno f hu
    luck hscore hshuffle args confirm hm hn hit hk hfields
  have hcur : Current modelled.1 := by
    rcases hu2 with ⟨h1, h2, h3⟩ | ⟨h1, -⟩
    · exfalso
      have hid' := hid
      -- a new file has no documents
      obtain ⟨k, hk0⟩ := List.exists_mem_of_ne_nil _ hne
      obtain ⟨d, hd⟩ := List.getElem?_of_mem hk0
      have := (i5 d k).2 hd
      rw [h3] at this
      cases this
    · exact h1
  have hserv : Servable modelled.1 := ⟨hid, .inl ⟨hcur, o2⟩⟩
  have hinj : ∀ x ∈ modelled.1.data.features, ∀ y ∈ modelled.1.data.features, x.fid = y.fid → x = y := fun x hx y hy h =>
    List.inj_on_of_nodup_map o2.featureIds hx hy h
  have hcard : ∀ r ∈ modelled.1.data.features, r.docsCount = howMany (fun k => HasValue content k r.field r.value) corpus.keys :=
    fun r hr => by rw [o2.counts r hr]; exact card_howMany _ _ _ (i3 r hr)
  have hsz := fun c => (model_size modelled.1.data o2 args.minDocs hmin i3 (fun fid h => by
    obtain ⟨x, h1, h2, h3, -⟩ := (o4 fid).1 h
    exact ⟨x, h1, h2, h3⟩) vocabulary hvoc c).trans hsize
  refine ⟨hind, hmod, ⟨hserv, hcur, i3, i4, i5, hsz⟩, ?_⟩
  intro fl x
  constructor
  · rintro ⟨c, r, hr, rfl, rfl, ha⟩
    obtain ⟨y, h1, h2, h3, h4⟩ := (o4 r.fid).1 (by rw [ha]; rfl)
    rw [hinj y h1 r hr h2] at h3 h4
    rw [hcard r hr] at h3
    exact ⟨h3, (ch r hr).1 h4⟩
  · rintro ⟨h1, h2⟩
    have hpos : ∃ k ∈ corpus.keys, HasValue content k fl x := by
      by_contra hnone
      have : howMany (fun k => HasValue content k fl x) corpus.keys = 0 := by
        classical
        unfold howMany
        rw [List.countP_eq_zero]
        intro k hk0 h
        exact hnone ⟨k, hk0, by simpa using h⟩
      omega
    obtain ⟨k, hk0, hv0⟩ := hpos
    obtain ⟨r, hr, rfl, rfl⟩ := i4 k hk0 fl x hv0
    obtain ⟨c, hc⟩ := Option.isSome_iff_exists.1 ((o4 r.fid).2 ⟨r, hr, rfl, by rw [hcard r hr]; exact h1, (ch r hr).2 h2⟩)
    exact ⟨c, r, hr, rfl, rfl, hc⟩


/-- Index again, on any corpus. -/
theorem any_described_later {corpus : Corpus} {content : Val → Features} (hs : Serves corpus content) (cfg : IndexCfg)
    (hi : Indexable corpus content cfg.positions)
    (hne : corpus.keys ≠ []) (s : Schedule) (hf : Fair s) (hno : ∀ i, s.fault i = none) (f : File) (hu : Usable f)
    (hsize : ∀ c, (featuresIn f.data c).length ≤ 2 ^ 62) :
    let indexed := Pipeline.onIndex f (indexCall corpus cfg s)
    indexed.2 = .ok () ∧ Described corpus content indexed.1 ∧
    (∀ fl x c, ValueIn indexed.1.data fl x c ↔ ValueIn f.data fl x c) := by
  intro indexed
  obtain ⟨b, -, -, -, hset, -, happ, -⟩ := usable_opens f hu
  have hidle : Idle (Conn.fresh f.data) f.data := fresh_idle _
  have hok := index_succeeds hidle hset hs hi hf hne hno
  obtain ⟨-, -, -, new', n1, n2, ⟨n3, n4, -⟩, -⟩ := index_success hidle (DB.Settled.toPending hset) hs hf hok
  obtain ⟨new, i1, i2, i3, i4, i5, -⟩ := index_any_command hs cfg hi hne s hf hno f hu
  have hnew : new' = new := by
    have := onIndex_usable f hu (indexCall corpus cfg s)
    rw [i1] at this
    have h2 := congrArg (fun x => x.1.data) this
    dsimp only at h2
    rw [h2]
    exact n1.committed.symm
  subst hnew
  have hindexed : indexed = ({ opened Faults.none f with data := new' }, .ok ()) := i1
  have hd : indexed.1.data = new' := by rw [hindexed]
  have hre : Reindexed f.data new' := by
    obtain ⟨a, b, c⟩ := reindexed_preserves (corpus := corpus) (cfg := cfg) (s := s) hset.toWellformed
    exact ⟨by rw [n3]; exact a, by rw [n3]; exact b, by rw [n4]; exact c⟩
  have hval : ∀ fl x c, ValueIn new' fl x c ↔ ValueIn f.data fl x c := reindexed_values hset.toWellformed n2.toWellformed hre
  have hcur : Current indexed.1 := by
    rcases usable_with f hu new' n2 with ⟨-, -, h3⟩ | ⟨h1, -⟩
    · exfalso
      obtain ⟨k, hk0⟩ := List.exists_mem_of_ne_nil _ hne
      obtain ⟨d, hd⟩ := List.getElem?_of_mem hk0
      have := (i5 d k).2 hd
      rw [show new' = {} from h3] at this
      cases this
    · rw [hindexed]; exact h1
  have hserv : Servable indexed.1 := ⟨by rw [hindexed]; simp [isIndexDb, magicId, happ], .inl ⟨hcur, by rw [hd]; exact n2⟩⟩
  have hsz : ∀ c, (featuresIn indexed.1.data c).length ≤ 2 ^ 62 := by
    intro c
    have : (featuresIn new' c).Perm (featuresIn f.data c) := by
      rw [List.perm_ext_iff_of_nodup (featuresIn_nodup n2.toWellformed c) (featuresIn_nodup hset.toWellformed c)]
      intro fid
      rw [mem_featuresIn n2.toWellformed, mem_featuresIn hset.toWellformed, assign_of_model hre.model]
    rw [hd, this.length_eq]
    exact hsize c
  refine ⟨by rw [hindexed], ⟨hserv, hcur, ?_, ?_, ?_, hsz⟩, by rw [hd]; exact hval⟩
  · rw [hd]; exact i3
  · rw [hd]; exact i4
  · rw [hd]; exact i5

section keys

variable {α : Type} {shows : Val → String → Val → Prop} {shows' : α → String → Val → Prop} {keys : List Val} {docs : List α} {key : α → Val}
  {db : DB}

theorem exists_keys {P : Val → Prop} {Q : α → Prop} (hperm : keys.Perm (docs.map key)) (h : ∀ d ∈ docs, (P (key d) ↔ Q d)) :
    (∃ k ∈ keys, P k) ↔ ∃ d ∈ docs, Q d := by
  constructor
  · rintro ⟨k, hk, hv⟩
    obtain ⟨d, hd, rfl⟩ := List.mem_map.1 (hperm.mem_iff.1 hk)
    exact ⟨d, hd, (h d hd).1 hv⟩
  · rintro ⟨d, hd, hv⟩
    exact ⟨key d, hperm.mem_iff.2 (List.mem_map.2 ⟨d, hd, rfl⟩), (h d hd).2 hv⟩

theorem share_keys {P P' : Val → Prop} {Q Q' : α → Prop} (hperm : keys.Perm (docs.map key)) (h : ∀ d ∈ docs, (P (key d) ↔ Q d))
    (h' : ∀ d ∈ docs, (P' (key d) ↔ Q' d)) : share keys P P' = share docs Q Q' := by
  unfold share
  rw [howMany_keys (shows := fun k => P k ∧ P' k) hperm (fun d hd => and_congr (h d hd) (h' d hd)),
    howMany_keys (shows := fun k => P k ∨ P' k) hperm (fun d hd => or_congr (h d hd) (h' d hd))]

theorem inCluster_keys (hshows : ∀ d ∈ docs, ∀ fl x, shows (key d) fl x ↔ shows' d fl x) (c : Int) :
    ∀ d ∈ docs, (InCluster shows db (key d) c ↔ InCluster shows' db d c) := by
  intro d hd
  unfold InCluster
  simp only [hshows d hd]

/-- The overview in terms of the documents that the keys stand for. -/
theorem overview_of_keys {k : Int} {p : IndexPage σ} (hperm : keys.Perm (docs.map key))
    (hshows : ∀ d ∈ docs, ∀ fl x, shows (key d) fl x ↔ shows' d fl x) (h : IsOverviewPage shows keys db k p) :
    IsOverviewPage shows' docs db k p := by
  obtain ⟨h1, h2, L, l1, l2, l3, l4, l5⟩ := h
  refine ⟨h1, h2, L, l1, l2, l3, l4, fun x hx => ?_⟩
  obtain ⟨e, t⟩ := l5 x hx
  have hcount : ∀ f v, howMany (fun d => shows d f v) keys = howMany (fun d => shows' d f v) docs := fun f v =>
    howMany_keys (shows := fun d => shows d f v) hperm (fun d hd => hshows d hd f v)
  refine ⟨?_, ⟨t.size, t.once, t.inCluster, ?_, t.descending, ?_⟩⟩
  · rw [e]; exact howMany_keys (shows := fun d => InCluster shows db d x.1) hperm (inCluster_keys hshows x.1)
  · intro y hy; rw [← hcount]; exact t.counts y hy
  · intro f v a b y hy; rw [← hcount]; exact t.best f v a b y hy

/-- The result of a search in terms of the documents that the keys stand for. -/
theorem search_of_keys {shown : Val → String} {html : α → String} {rd : Rat → σ} {field : String} {v : Val} {n k : Nat} {p : IndexPage σ}
    (hperm : keys.Perm (docs.map key)) (hshows : ∀ d ∈ docs, ∀ fl x, shows (key d) fl x ↔ shows' d fl x)
    (hshown : ∀ d ∈ docs, shown (key d) = html d) (h : IsSearchPage shows keys id shown rd db field v n k p) :
    IsSearchPage shows' docs key html rd db field v n k p := by
  obtain ⟨h1, h2, ⟨rs, r1, r2, r3, r4⟩, L, l1, l2, l3, l4, l5⟩ := h
  have hcount : ∀ f v, howMany (fun d => shows d f v) keys = howMany (fun d => shows' d f v) docs := fun f v =>
    howMany_keys (shows := fun d => shows d f v) hperm (fun d hd => hshows d hd f v)
  refine ⟨h1, by rw [h2, hcount], ⟨rs, r1, r2, r3, ?_⟩, L, l1, l2, ?_, l4, ?_⟩
  · intro r hr
    obtain ⟨x, hx, a, b, c⟩ := r4 r hr
    obtain ⟨d, hd, rfl⟩ := List.mem_map.1 (hperm.mem_iff.1 hx)
    exact ⟨d, hd, (hshows d hd _ _).1 a, b, c.trans (hshown d hd)⟩
  · intro c
    rw [l3]
    exact exists_keys (P := fun d => shows d field v ∧ InCluster shows db d c) hperm
      (fun d hd => and_congr (hshows d hd _ _) (inCluster_keys hshows c d hd))
  · intro x hx
    obtain ⟨e, t⟩ := l5 x hx
    have hs : ∀ fl y, share keys (shows · field v) (shows · fl y) = share docs (shows' · field v) (shows' · fl y) := fun fl y =>
      share_keys (P := (shows · field v)) (P' := (shows · fl y)) hperm (fun d hd => hshows d hd _ _) (fun d hd => hshows d hd _ _)
    have he : ∀ fl y, (∃ d ∈ keys, shows d field v ∧ shows d fl y) ↔ ∃ d ∈ docs, shows' d field v ∧ shows' d fl y := fun fl y =>
      exists_keys (P := fun d => shows d field v ∧ shows d fl y) hperm (fun d hd => and_congr (hshows d hd _ _) (hshows d hd _ _))
    refine ⟨?_, ⟨t.size, t.once, ?_, ?_, t.descending, ?_⟩⟩
    · rw [e]
      exact congrArg rd (share_keys (P := (shows · field v)) (P' := (InCluster shows db · x.1)) hperm
        (fun d hd => hshows d hd _ _) (inCluster_keys hshows x.1))
    · intro y hy
      obtain ⟨a, b⟩ := t.inCluster y hy
      exact ⟨a, (he _ _).1 b⟩
    · intro y hy; rw [← hs]; exact t.shares y hy
    · intro fl y a b c
      obtain ⟨d, e⟩ := t.best fl y a ((he _ _).2 b) c
      refine ⟨d, fun z hz => ?_⟩
      rw [← hs]; exact e z hz

/-- The page of a cluster for a value, in terms of the documents that the keys stand for. -/
theorem filtered_of_keys {shown : Val → String} {html : α → String} {field : String} {v : Val} {c : Int} {n : Nat} {p : ClusterPage σ}
    (hperm : keys.Perm (docs.map key)) (hshows : ∀ d ∈ docs, ∀ fl x, shows (key d) fl x ↔ shows' d fl x)
    (hshown : ∀ d ∈ docs, shown (key d) = html d) (h : IsFilteredPage shows keys id shown db field v c n p) :
    IsFilteredPage shows' docs key html db field v c n p := by
  obtain ⟨h1, ⟨h2, h3⟩, h4, h5, rs, r1, r2, r3, r4⟩ := h
  have hboth : ∀ d ∈ docs, (shows (key d) field v ∧ InCluster shows db (key d) c ↔ shows' d field v ∧ InCluster shows' db d c) :=
    fun d hd => and_congr (hshows d hd _ _) (inCluster_keys hshows c d hd)
  refine ⟨h1, ⟨h2, fun fl x => ?_⟩, h4, ?_, rs, r1, r2, r3, ?_⟩
  · rw [h3]
    exact and_congr_right (fun _ => or_congr_right (exists_keys (P := fun d => shows d field v ∧ shows d fl x) hperm
      (fun d hd => and_congr (hshows d hd _ _) (hshows d hd _ _))))
  · rw [h5]
    exact howMany_keys (shows := fun d => shows d field v ∧ InCluster shows db d c) hperm hboth
  · intro r hr
    obtain ⟨x, hx, a, b, c⟩ := r4 r hr
    obtain ⟨d, hd, rfl⟩ := List.mem_map.1 (hperm.mem_iff.1 hx)
    exact ⟨d, hd, (hboth d hd).1 a, b, c.trans (hshown d hd)⟩

end keys

/-- Searching in an index file that describes the documents. -/
theorem source_answers {α : Type} {cfg : IndexCfg} {s : Schedule} {connect : Except Err (Option Backing)}
    {index : File → File × Except Err Unit} {shows : α → String → Val → Prop} {docs : List α} {key : α → Val} {html : α → String}
    {corpus : Corpus} {content : Val → Features} {render : List Val → Except Err (List (Val × String))} {shown : Val → String}
    (S : Source cfg s connect index shows docs key html corpus content render shown) (f : File) (D : Described corpus content f)
    (hint : ReadsNumbers int) (v : Visit σ) (hw : FairWeb v.web) (hp : Draws v.web.pick) (hmodel : ∃ c fl x, ValueIn f.data fl x c) :
    AnswersSearches (fun r => follow int connect f { v with request := r }) shows docs key html v.web.rd f.data := by
  obtain ⟨⟨p, p1, p2⟩, hdata, hzero, hin, h2⟩ := described_search (int := int) hint S.serves.keys f D.servable D.current D.feat D.keys D.size corpus render shown
    S.renders v hw hp hmodel
  rw [S.connects]
  have hex : ∀ field text, (∃ k ∈ corpus.keys, HasValue content k field (.text text)) ↔ ∃ d ∈ docs, shows d field (.text text) :=
    fun field text => exists_keys (P := fun k => HasValue content k field (.text text)) S.perm (fun d hd => S.has d hd _ _)
  refine ⟨⟨p, p1, overview_of_keys S.perm S.has p2⟩, hdata, ?_, ?_, ?_, hzero⟩
  · intro field text hd
    have hd' := (hex field text).2 hd
    obtain ⟨k, hk, hv⟩ := hd'
    obtain ⟨p, p1, p2, -⟩ := (h2 field text).2 (D.all k hk _ _ hv)
    exact ⟨p, p1, search_of_keys S.perm S.has S.looks (p2 ⟨k, hk, hv⟩)⟩
  · intro field text hd
    by_cases hr : ∃ r ∈ f.data.features, r.field = field ∧ r.value = .text text
    · obtain ⟨p, p1, -, p2⟩ := (h2 field text).2 hr
      exact .inr ⟨p, p1, overview_of_keys S.perm S.has (p2 (fun h => hd ((hex field text).1 h)))⟩
    · exact .inl ((h2 field text).1 hr)
  · intro c field text hc0 hc
    obtain ⟨i1, i2⟩ := hin c field text hc0 hc
    constructor
    · intro hd h
      obtain ⟨k, hk, hv⟩ := (hex field text).2 hd
      obtain ⟨p, p1, -⟩ := i2 (D.all k hk _ _ hv)
      rw [p1] at h
      cases h
    · by_cases hr : ∃ r ∈ f.data.features, r.field = field ∧ r.value = .text text
      · obtain ⟨p, p1, p2⟩ := i2 hr
        exact .inr ⟨p, p1, filtered_of_keys S.perm S.has S.looks p2⟩
      · exact .inl (i1 hr)

/-- A text file as a source of documents. -/
theorem text_file_source (space : Char → Bool) (limit : Nat) (ls : List Line) (hls : ∀ l ∈ ls, l.Ok limit)
    (file : List Char) (hfile : file = ls.flatMap Line.render ∨ file ++ ['\n'] = ls.flatMap Line.render)
    (hne : documents space ls ≠ []) (old : PlainText.Db) (tokens : String → List String) (cfg : IndexCfg) (s : Schedule) :
    let docs := numbered (documents space ls)
    let corpus := Pipeline.create space limit file old
    let shows := fun (d : Nat × String) (field : String) (x : Val) => field = "text" ∧ ∃ t ∈ tokens d.2, x = .text t
    corpus.2 = .ok () ∧ ∃ shown, Source cfg s (plain tokens corpus.1) (Pipeline.indexPlain tokens cfg s corpus.1) shows docs
      (fun d => .int d.1) (·.2) (PlainText.corpus tokens docs) (plainContent tokens docs) (plainHtml (some docs)) shown := by
  intro docs corpus shows
  obtain ⟨c1, c2⟩ := create_reads_partial space limit ls hls file hfile (Conn.fresh old) old ⟨rfl, rfl, rfl, rfl, rfl, rfl⟩
  have hcorpus : corpus = (some docs, .ok ()) := by
    show Pipeline.create space limit file old = _
    unfold Pipeline.create
    cases hx : plaintextCreate space limit (fun _ => none) file (Conn.fresh old) with
    | mk c r =>
      rw [hx] at c1 c2
      dsimp only at c1 c2
      rw [c1]
      dsimp only
      congr 1
      exact c2.committed
  have hnk : (docs.map (·.1)).Nodup := numbered_keys _
  obtain ⟨hs, hind⟩ := plain_text_serves tokens docs hnk
  have hdocs : docs ≠ [] := by
    intro h
    apply hne
    have := congrArg List.length h
    simpa [docs, numbered] using this
  have hdoc : ∀ d ∈ docs, PlainText.docOf (some docs) d.1 = .ok d.2 := fun d hd => PlainText.docOf_unique _ hnk _ hd
  have hkeys : (PlainText.corpus tokens docs).keys = docs.map (fun d => Val.int d.1) := rfl
  have hshows : ∀ d ∈ docs, ∀ fl x, HasValue (plainContent tokens docs) (.int d.1) fl x ↔ shows d fl x := by
    intro d hd fl x
    have : plainContent tokens docs (.int d.1) = PlainText.features tokens d.2 := by
      unfold plainContent PlainText.indexed
      have : PlainText.asKey (Val.int (d.1 : Int)) = some d.1 := rfl
      rw [this]
      dsimp only
      rw [hdoc d hd]
    unfold HasValue
    rw [this]
    constructor
    · rintro ⟨vs, h1, h2⟩
      simp only [PlainText.features, List.mem_singleton, Prod.mk.injEq] at h1
      obtain ⟨rfl, rfl⟩ := h1
      obtain ⟨t, ht, e⟩ := List.mem_map.1 h2
      cases e
      exact ⟨rfl, t, ht, rfl⟩
    · rintro ⟨rfl, t, ht, rfl⟩
      exact ⟨.seq ((tokens d.2).map (fun t => some (Val.text t))), by simp [PlainText.features], List.mem_map.2 ⟨t, ht, rfl⟩⟩
  have hone : ∀ k ∈ (PlainText.corpus tokens docs).keys, ∃ d ∈ docs, k = .int d.1 := by
    intro k hk'
    obtain ⟨d, hd, rfl⟩ := List.mem_map.1 hk'
    exact ⟨d, hd, rfl⟩
  let shown : Val → String := fun k => match PlainText.docOf (some docs) ((PlainText.asKey k).getD 0) with
    | .ok t => t
    | .error _ => ""
  have hshown : ∀ d ∈ docs, shown (.int d.1) = d.2 := by
    intro d hd
    show (match PlainText.docOf (some docs) ((some d.1).getD 0) with | .ok t => t | .error _ => "") = _
    rw [Option.getD_some, hdoc d hd]
  refine ⟨by rw [hcorpus], shown, ⟨hs, hind _, by rw [hkeys]; simpa using hdocs, ?_, by rw [hcorpus]; rfl, .refl _, hshows, hshown, ?_⟩⟩
  · intro f
    rw [hcorpus]
    rfl
  · intro ks hks
    unfold plainHtml
    apply mapM_all_ok
    intro k hk'
    obtain ⟨d, hd, rfl⟩ := hone k (hks k hk')
    have : PlainText.asKey (Val.int (d.1 : Int)) = some d.1 := rfl
    rw [this]
    dsimp only
    rw [hdoc d hd, hshown d hd]
    rfl

/-- The sites of a Stack Exchange corpus as a source of documents. -/
theorem sites_source (t : SX.TextOps) (h0 : t.tokens "" = []) (scan : List SX.Post → List SX.Post)
    (hscan : ∀ l, (scan l).Perm l) (ds : List (SX.Dump × String)) (hds : SitesReadable t ds) (hne : allPosts ds ≠ [])
    (cfg : IndexCfg) (s : Schedule) (order : List String → List String) (ho : ∀ l, (order l).Perm l) :
    let docs := (allPosts ds).zipIdx
    let corpus := Pipeline.addSites ds {}
    let shows := fun (x : SitePost × Nat) (field : String) (y : Val) => ∃ w, y = .text w ∧ SxShows t x.1.doc field w
    corpus.2 = .ok () ∧ ∃ html : SitePost × Nat → String,
      (∀ x ∈ docs, (∃ fs, html x = String.ofList (SX.postHtml order fs) ∧ RowShows x.1.dump x.1.url x.1.row (SX.tableRow order fs)) ∧
        (Unmarking x.1.dump x.1.url x.1.row → Finished (html x).toList ∧
          nodes (html x).toList = postNodes x.1.dump x.1.url x.1.row (order (tagsIn x.1.dump (x.1.row.parent.or x.1.row.id))))) ∧
      ∃ content shown, Source cfg s (stackExchange t scan order corpus.1) (Pipeline.indexSx t scan cfg s corpus.1) shows docs
        (fun x => .int ((x.2 + 1 : Nat) : Int)) html (SX.corpus t scan corpus.1) content (sxHtml order corpus.1) shown := by
  intro docs corpus shows
  obtain ⟨hadd, hs, hi, hkne, hkeys, hcont, -⟩ := sites_corpus t h0 scan hscan ds hds hne id (fun l => .refl _)
  set content := fun k => okOr (SX.indexed t (Pipeline.addSites ds {}).1 k) with hcontent
  have hdoc : ∀ x, x ∈ docs ↔ (allPosts ds)[x.2]? = some x.1 := fun x => List.mem_zipIdx_iff_getElem?
  have hperm : (SX.corpus t scan corpus.1).keys.Perm (docs.map (fun x => Val.int ((x.2 + 1 : Nat) : Int))) := by
    have hnd : (docs.map (fun x => Val.int ((x.2 + 1 : Nat) : Int))).Nodup := by
      have : docs.map (fun x => Val.int ((x.2 + 1 : Nat) : Int)) = (docs.map (·.2)).map (fun n : Nat => Val.int ((n + 1 : Nat) : Int)) := by
        rw [List.map_map]; rfl
      rw [this, show docs.map (·.2) = List.range' 0 (allPosts ds).length from List.zipIdx_map_snd 0 _]
      exact List.Nodup.map (fun a b h => by simpa using h) List.nodup_range'
    rw [List.perm_ext_iff_of_nodup hs.keys hnd]
    intro k
    rw [hkeys]
    simp only [List.mem_map]
    constructor
    · rintro ⟨i, r, h1, rfl⟩; exact ⟨(r, i), (hdoc _).2 h1, rfl⟩
    · rintro ⟨⟨r, i⟩, h1, rfl⟩; exact ⟨i, r, (hdoc _).1 h1, rfl⟩
  have hshows : ∀ x ∈ docs, ∀ fl y, HasValue content (.int ((x.2 + 1 : Nat) : Int)) fl y ↔ shows x fl y := fun x hx fl y =>
    hcont x.2 x.1 ((hdoc x).1 hx) fl y
  have hall : ∀ n : Nat, ∃ fs, ∀ r, (allPosts ds)[n]? = some r → SX.renderedFields corpus.1 (n + 1) = .ok fs ∧
      FieldsShow r.dump r.url r.row fs := by
    intro n
    cases hn' : (allPosts ds)[n]? with
    | none => exact ⟨(⟨0, "", none, none, none, none, none, "", none, none, none, none⟩, [], []), fun r h => by cases h⟩
    | some r =>
      obtain ⟨fs, e1, e2⟩ := sites_rendered t ds hds n r hn'
      refine ⟨fs, fun r' h' => ?_⟩
      cases h'
      exact ⟨e1, e2⟩
  choose g hg using hall
  refine ⟨hadd, fun x => String.ofList (SX.postHtml order (g x.2)), ?_, content,
    fun k => String.ofList (SX.postHtml order (g ((SX.asKey k).getD 0 - 1))),
    ⟨hs, hi _, hkne, fun f => rfl, rfl, hperm, hshows, fun x _ => rfl, ?_⟩⟩
  · intro x hx
    have hshow := (hg x.2 x.1 ((hdoc x).1 hx)).2
    refine ⟨⟨g x.2, rfl, rowShows_of_fields hshow order ho⟩, fun hu => ?_⟩
    rw [String.toList_ofList]
    exact post_read hshow hu order ho
  · intro ks hks
    unfold sxHtml
    apply mapM_all_ok
    intro k hk'
    obtain ⟨n, r, h1, rfl⟩ := (hkeys k).1 (hks k hk')
    have : SX.asKey (Val.int ((n + 1 : Nat) : Int)) = some (n + 1) := rfl
    rw [this]
    dsimp only
    rw [(hg n r h1).1]
    rfl

/-- A collection of tweets as a source of documents. -/
theorem tweets_source (t : TW.TextOps) (template : TW.Doc → String) (tw : TW.Db) (hr : TwReadable t tw)
    (hver : ∃ v, tw.version = some v ∧ 15 ≤ v) (hne : tw.direct ≠ [])
    (cfg : IndexCfg) (hpos : cfg.positions = true → ∀ x ∈ collected tw, NothingMissing tw x) (s : Schedule) :
    let docs := collected tw
    ∃ html : TW.Tweet → String, (∀ x ∈ docs, ∃ doc, TW.docOf t tw x.id = .ok doc ∧ doc.tweet = x ∧ html x = template doc) ∧
      ∃ content shown, Source cfg s (twittersphere t template tw) (Pipeline.indexTw t cfg s tw) (TwShows t tw) docs
        (fun x => .int x.id) html (TW.corpus t tw) content (twHtml t template tw) shown := by
  intro docs
  obtain ⟨hs, hkeys⟩ := tw_serves t tw hr
  set content := fun k => okOr (TW.indexed t tw k) with hcontent
  have hshow : ∀ x ∈ collected tw, ∀ fl v, HasValue content (.int x.id) fl v ↔ TwShows t tw x fl v := by
    intro x hx fl v
    obtain ⟨g, hg, hg'⟩ := tw_shows t tw hr x (List.mem_filter.1 hx).1
    rw [← hg' fl v, HasValue]
    show (∃ vs, (fl, vs) ∈ okOr (TW.indexed t tw (.int x.id)) ∧ _) ↔ _
    rw [okOr_eq hg]
  have hkey : ∀ k, k ∈ (TW.corpus t tw).keys ↔ ∃ x ∈ collected tw, k = .int x.id := by
    intro k
    rw [hkeys]
    constructor
    · rintro ⟨x, h1, h2, rfl⟩; exact ⟨x, List.mem_filter.2 ⟨h1, by simpa using h2⟩, rfl⟩
    · rintro ⟨x, h1, rfl⟩
      obtain ⟨h2, h3⟩ := List.mem_filter.1 h1
      exact ⟨x, h2, by simpa using h3, rfl⟩
  have hkne : (TW.corpus t tw).keys ≠ [] := by
    obtain ⟨i, l, e⟩ := List.exists_cons_of_ne_nil hne
    have hi : i ∈ tw.direct := by rw [e]; simp
    obtain ⟨x, hx, rfl⟩ := hr.stored i hi
    exact List.ne_nil_of_mem ((hkeys _).2 ⟨x, hx, hi, rfl⟩)
  have hi : Indexable (TW.corpus t tw) content cfg.positions := by
    refine (tw_indexable t tw hr cfg.positions).2 ?_
    rintro h i hi' x hx rfl
    exact hpos h x (List.mem_filter.2 ⟨hx, by simpa using hi'⟩)
  have hperm : (TW.corpus t tw).keys.Perm ((collected tw).map (fun x => Val.int x.id)) := by
    rw [List.perm_ext_iff_of_nodup hs.keys (by
      have : ((collected tw).map (fun x => Val.int x.id)) = ((collected tw).map (·.id)).map (fun i : Nat => Val.int i) := by
        rw [List.map_map]; rfl
      rw [this]
      exact (hr.tweetIds.sublist (List.Sublist.map _ List.filter_sublist)).map (fun a b h => by simpa using h))]
    intro k
    rw [hkey]
    simp only [List.mem_map, eq_comm]
  have hdocs : ∀ n : Nat, ∃ doc, ∀ x ∈ collected tw, x.id = n → TW.docOf t tw n = .ok doc ∧ doc.tweet = x := by
    intro n
    by_cases hx : ∃ x ∈ collected tw, x.id = n
    · obtain ⟨x, hx, rfl⟩ := hx
      have hx' := (List.mem_filter.1 hx).1
      obtain ⟨g, hg, -⟩ := tw_shows t tw hr x hx'
      have h0 : TW.indexed t tw (.int x.id) = (match TW.docOf t tw x.id with | .error e => .error e | .ok d => TW.features t d) := rfl
      rw [h0] at hg
      cases hd : TW.docOf t tw x.id with
      | error e => rw [hd] at hg; cases hg
      | ok doc =>
        refine ⟨doc, fun y hy hyx => ?_⟩
        have hxy : y = x := List.inj_on_of_nodup_map hr.tweetIds (List.mem_filter.1 hy).1 hx' hyx
        subst hxy
        refine ⟨rfl, ?_⟩
        unfold TW.docOf at hd
        cases hh : (tw.tweets.filter (fun z => z.id = y.id)).head? with
        | none => rw [hh] at hd; cases hd
        | some z =>
          rw [hh] at hd
          dsimp only at hd
          have hz := List.mem_filter.1 (List.mem_of_head? hh)
          have hzy : z = y := List.inj_on_of_nodup_map hr.tweetIds hz.1 hx' (by simpa using hz.2)
          subst hzy
          split at hd
          · cases hd
          · split at hd
            · cases hd
            · cases hd; rfl
    · by_cases hany : ∃ x, x ∈ collected tw
      · obtain ⟨x, hx'⟩ := hany
        obtain ⟨g, hg, -⟩ := tw_shows t tw hr x (List.mem_filter.1 hx').1
        have h0 : TW.indexed t tw (.int x.id) = (match TW.docOf t tw x.id with | .error e => .error e | .ok d => TW.features t d) := rfl
        rw [h0] at hg
        cases hd : TW.docOf t tw x.id with
        | error e => rw [hd] at hg; cases hg
        | ok doc => exact ⟨doc, fun y hy h => absurd ⟨y, hy, h⟩ hx⟩
      · obtain ⟨k, l, e⟩ := List.exists_cons_of_ne_nil hkne
        obtain ⟨x, hx', -⟩ := (hkey k).1 (by rw [e]; simp)
        exact absurd ⟨x, hx'⟩ hany
  choose g hg using hdocs
  refine ⟨fun x => template (g x.id), ?_, content, fun k => template (g ((TW.asKey k).getD 0)),
    ⟨hs, hi, hkne, ?_, ?_, hperm, hshow, fun x _ => rfl, ?_⟩⟩
  · intro x hx
    exact ⟨g x.id, (hg x.id x hx rfl).1, (hg x.id x hx rfl).2, rfl⟩
  · intro f
    rw [Pipeline.indexTw, (twittersphere_opens_iff tw).2 hver]
  · rw [twittersphere, (twittersphere_opens_iff tw).2 hver]
  · intro ks hks
    unfold twHtml
    apply mapM_all_ok
    intro k hk'
    obtain ⟨x, hx, rfl⟩ := (hkey k).1 (hks k hk')
    have : TW.asKey (Val.int (x.id : Int)) = some x.id := rfl
    rw [this]
    dsimp only
    rw [(hg x.id x hx rfl).1]
    rfl

theorem source_modelled {α : Type} {cfg : IndexCfg} {s : Schedule} {connect : Except Err (Option Backing)}
    {index : File → File × Except Err Unit} {shows : α → String → Val → Prop} {docs : List α} {key : α → Val} {html : α → String}
    {corpus : Corpus} {content : Val → Features} {render : List Val → Except Err (List (Val × String))} {shown : Val → String}
    (S : Source cfg s connect index shows docs key html corpus content render shown)
    (hf : Fair s) (hno : ∀ i, s.fault i = none) (f : File) (hu : Usable f)
    (vocabulary : List (String × Val)) (hvoc : ∀ d ∈ docs, ∀ fl x, shows d fl x → (fl, x) ∈ vocabulary)
    (hsize : vocabulary.length ≤ 2 ^ 62)
    (luck : Luck Rat) (hscore : luck.score = exactScorer luck.chance) (hshuffle : ∀ l, (luck.shuffle l).Perm l)
    (args : ModelArgs) (confirm : Bool) (hm : f.data.clusters = [] ∨ (args.restart = true ∧ confirm = true))
    (hn : ∀ k, args.clusters = some k → 0 ≤ k) (hit : 1 ≤ args.iterations) (hk : 1 ≤ args.groupTopK) (hmin : 1 ≤ args.minDocs)
    (hfields : args.fields.Nodup)
    (hint : ReadsNumbers int) (v : Visit σ) (hw : FairWeb v.web) (hp : Draws v.web.pick) :
    let indexed := index f
    let modelled := Pipeline.model luck args confirm indexed.1
    indexed.2 = .ok () ∧ modelled.2 = .done ∧ (∀ fl x, (∃ c, ValueIn modelled.1.data fl x c) ↔
      args.minDocs ≤ howMany (fun d => shows d fl x) docs ∧ (args.fields = [] ∨ fl ∈ args.fields)) ∧
    ((∃ c fl x, ValueIn modelled.1.data fl x c) →
      AnswersSearches (fun r => follow int connect modelled.1 { v with request := r }) shows docs key html v.web.rd modelled.1.data) := by
  intro indexed modelled
  obtain ⟨a1, a2, a3, a4⟩ := any_described S.serves cfg S.indexable S.nonempty s hf hno f hu vocabulary (by
    intro k hk' fl x hv
    obtain ⟨d, hd, rfl⟩ := List.mem_map.1 (S.perm.mem_iff.1 hk')
    exact hvoc d hd fl x ((S.has d hd fl x).1 hv)) hsize luck hscore hshuffle args confirm hm hn hit hk hmin hfields
  rw [← S.indexes f] at a1 a2 a3 a4
  refine ⟨a1, a2, fun fl x => ?_, fun hmodel => source_answers S _ a3 hint v hw hp hmodel⟩
  rw [← howMany_keys (shows := fun k => HasValue content k fl x) S.perm (fun d hd => S.has d hd fl x)]
  exact a4 fl x

theorem source_later {α : Type} {cfg : IndexCfg} {s : Schedule} {connect : Except Err (Option Backing)}
    {index : File → File × Except Err Unit} {shows : α → String → Val → Prop} {docs : List α} {key : α → Val} {html : α → String}
    {corpus : Corpus} {content : Val → Features} {render : List Val → Except Err (List (Val × String))} {shown : Val → String}
    (S : Source cfg s connect index shows docs key html corpus content render shown)
    (hf : Fair s) (hno : ∀ i, s.fault i = none) (f : File) (hu : Usable f)
    (hsize : ∀ c, (featuresIn f.data c).length ≤ 2 ^ 62)
    (hint : ReadsNumbers int) (v : Visit σ) (hw : FairWeb v.web) (hp : Draws v.web.pick) :
    let indexed := index f
    indexed.2 = .ok () ∧ ((∃ c fl x, ValueIn f.data fl x c) →
      AnswersSearches (fun r => follow int connect indexed.1 { v with request := r }) shows docs key html v.web.rd indexed.1.data) := by
  intro indexed
  obtain ⟨a1, a2, a3⟩ := any_described_later S.serves cfg S.indexable S.nonempty s hf hno f hu hsize
  rw [← S.indexes f] at a1 a2 a3
  refine ⟨a1, fun hmodel => source_answers S _ a2 hint v hw hp ?_⟩
  obtain ⟨c, fl, x, h⟩ := hmodel
  exact ⟨c, fl, x, (a3 fl x c).2 h⟩

/-- **C87.** Searching a text file.  `create`, `index`, `model` (a new one) and `serve` on a text file (C80); if the model has a
value, the overview lists its clusters with the numbers of lines and the most frequent tokens, and a search for a token finds
exactly the lines that have it: their number, five of them (or all), and the clusters of the tokens they have. -/
theorem text_file_searched (space : Char → Bool) (limit : Nat) (ls : List Line) (hls : ∀ l ∈ ls, l.Ok limit)
    (file : List Char) (hfile : file = ls.flatMap Line.render ∨ file ++ ['\n'] = ls.flatMap Line.render)
    (hne : documents space ls ≠ []) (old : PlainText.Db) (tokens : String → List String)
    (hsize : ((documents space ls).flatMap tokens).length ≤ 2 ^ 62)
    (cfg : IndexCfg) (s : Schedule) (hf : Fair s) (hno : ∀ i, s.fault i = none) (f : File) (hu : Usable f)
    (luck : Luck Rat) (hscore : luck.score = exactScorer luck.chance) (hshuffle : ∀ l, (luck.shuffle l).Perm l)
    (args : ModelArgs) (confirm : Bool) (hm : f.data.clusters = [] ∨ (args.restart = true ∧ confirm = true))
    (hn : ∀ k, args.clusters = some k → 0 ≤ k) (hit : 1 ≤ args.iterations) (hk : 1 ≤ args.groupTopK) (hmin : 1 ≤ args.minDocs)
    (hfields : args.fields.Nodup)
    (hint : ReadsNumbers int) (v : Visit σ) (hw : FairWeb v.web) (hp : Draws v.web.pick) :
    let docs := numbered (documents space ls)
    let corpus := Pipeline.create space limit file old
    let indexed := Pipeline.indexPlain tokens cfg s corpus.1 f
    let modelled := Pipeline.model luck args confirm indexed.1
    let shows := fun (d : Nat × String) (field : String) (x : Val) => field = "text" ∧ ∃ t ∈ tokens d.2, x = .text t
    corpus.2 = .ok () ∧ indexed.2 = .ok () ∧ modelled.2 = .done ∧ (∀ fl x, (∃ c, ValueIn modelled.1.data fl x c) ↔
      args.minDocs ≤ howMany (fun d => shows d fl x) docs ∧ (args.fields = [] ∨ fl ∈ args.fields)) ∧
    ((∃ c fl x, ValueIn modelled.1.data fl x c) →
      AnswersSearches (fun r => follow int (plain tokens corpus.1) modelled.1 { v with request := r }) shows docs (fun d => .int d.1) (·.2) v.web.rd modelled.1.data) := by
  intro docs corpus indexed modelled shows
  obtain ⟨h1, shown, S⟩ := text_file_source space limit ls hls file hfile hne old tokens cfg s
  refine ⟨h1, source_modelled S hf hno f hu (((documents space ls).flatMap tokens).map (fun t => ("text", Val.text t))) ?_ (by simpa using hsize)
    luck hscore hshuffle args confirm hm hn hit hk hmin hfields hint v hw hp⟩
  rintro d hd fl x ⟨rfl, t, ht, rfl⟩
  refine List.mem_map.2 ⟨t, List.mem_flatMap.2 ⟨d.2, ?_, ht⟩, rfl⟩
  obtain ⟨i, hi'⟩ := List.getElem?_of_mem hd
  rw [numbered_get] at hi'
  cases hx : (documents space ls)[i]? with
  | none => rw [hx] at hi'; cases hi'
  | some y =>
    rw [hx] at hi'
    simp only [Option.map_some, Option.some.injEq] at hi'
    rw [← hi']
    exact List.mem_of_getElem? hx

/-- **C87**, for an index file whose model was made before, from whatever documents. -/
theorem text_file_later_searched (space : Char → Bool) (limit : Nat) (ls : List Line) (hls : ∀ l ∈ ls, l.Ok limit)
    (file : List Char) (hfile : file = ls.flatMap Line.render ∨ file ++ ['\n'] = ls.flatMap Line.render)
    (hne : documents space ls ≠ []) (old : PlainText.Db) (tokens : String → List String)
    (cfg : IndexCfg) (s : Schedule) (hf : Fair s) (hno : ∀ i, s.fault i = none) (f : File) (hu : Usable f)
    (hsize : ∀ c, (featuresIn f.data c).length ≤ 2 ^ 62)
    (hint : ReadsNumbers int) (v : Visit σ) (hw : FairWeb v.web) (hp : Draws v.web.pick) :
    let docs := numbered (documents space ls)
    let corpus := Pipeline.create space limit file old
    let indexed := Pipeline.indexPlain tokens cfg s corpus.1 f
    let shows := fun (d : Nat × String) (field : String) (x : Val) => field = "text" ∧ ∃ t ∈ tokens d.2, x = .text t
    corpus.2 = .ok () ∧ indexed.2 = .ok () ∧ ((∃ c fl x, ValueIn f.data fl x c) →
      AnswersSearches (fun r => follow int (plain tokens corpus.1) indexed.1 { v with request := r }) shows docs (fun d => .int d.1) (·.2) v.web.rd indexed.1.data) := by
  intro docs corpus indexed shows
  obtain ⟨h1, shown, S⟩ := text_file_source space limit ls hls file hfile hne old tokens cfg s
  exact ⟨h1, source_later S hf hno f hu hsize hint v hw hp⟩

/-- **C87**, for the data dumps of any number of sites: `index`, `model` and `serve`. -/
theorem sites_searched (t : SX.TextOps) (h0 : t.tokens "" = []) (scan : List SX.Post → List SX.Post)
    (hscan : ∀ l, (scan l).Perm l) (ds : List (SX.Dump × String)) (hds : SitesReadable t ds) (hne : allPosts ds ≠ [])
    (order : List String → List String) (ho : ∀ l, (order l).Perm l)
    (vocabulary : List (String × String))
    (hvoc : ∀ r ∈ allPosts ds, ∀ fl w, SxShows t r.doc fl w → (fl, w) ∈ vocabulary) (hsize : vocabulary.length ≤ 2 ^ 62)
    (cfg : IndexCfg) (s : Schedule) (hf : Fair s) (hno : ∀ i, s.fault i = none) (f : File) (hu : Usable f)
    (luck : Luck Rat) (hscore : luck.score = exactScorer luck.chance) (hshuffle : ∀ l, (luck.shuffle l).Perm l)
    (args : ModelArgs) (confirm : Bool) (hm : f.data.clusters = [] ∨ (args.restart = true ∧ confirm = true))
    (hn : ∀ k, args.clusters = some k → 0 ≤ k) (hit : 1 ≤ args.iterations) (hk : 1 ≤ args.groupTopK) (hmin : 1 ≤ args.minDocs)
    (hfields : args.fields.Nodup)
    (hint : ReadsNumbers int) (v : Visit σ) (hw : FairWeb v.web) (hp : Draws v.web.pick) :
    let docs := (allPosts ds).zipIdx
    let corpus := Pipeline.addSites ds {}
    let indexed := Pipeline.indexSx t scan cfg s corpus.1 f
    let modelled := Pipeline.model luck args confirm indexed.1
    let shows := fun (x : SitePost × Nat) (field : String) (y : Val) => ∃ w, y = .text w ∧ SxShows t x.1.doc field w
    corpus.2 = .ok () ∧ indexed.2 = .ok () ∧ modelled.2 = .done ∧ (∀ fl x, (∃ c, ValueIn modelled.1.data fl x c) ↔
      args.minDocs ≤ howMany (fun d => shows d fl x) docs ∧ (args.fields = [] ∨ fl ∈ args.fields)) ∧
    ∃ html : SitePost × Nat → String,
      (∀ x ∈ docs, (∃ fs, html x = String.ofList (SX.postHtml order fs) ∧ RowShows x.1.dump x.1.url x.1.row (SX.tableRow order fs)) ∧
        (Unmarking x.1.dump x.1.url x.1.row → Finished (html x).toList ∧
          nodes (html x).toList = postNodes x.1.dump x.1.url x.1.row (order (tagsIn x.1.dump (x.1.row.parent.or x.1.row.id))))) ∧
      ((∃ c fl x, ValueIn modelled.1.data fl x c) →
        AnswersSearches (fun r => follow int (stackExchange t scan order corpus.1) modelled.1 { v with request := r }) shows docs (fun x => .int ((x.2 + 1 : Nat) : Int)) html v.web.rd modelled.1.data) := by
  intro docs corpus indexed modelled shows
  obtain ⟨h1, html, h2, content, shown, S⟩ := sites_source t h0 scan hscan ds hds hne cfg s order ho
  obtain ⟨a1, a2, av, a3⟩ := source_modelled (int := int) S hf hno f hu (vocabulary.map (fun x => (x.1, Val.text x.2))) (by
    rintro x hx fl y ⟨w, rfl, hw⟩
    exact List.mem_map.2 ⟨(fl, w), hvoc x.1 (List.mem_of_getElem? (List.mem_zipIdx_iff_getElem?.1 hx)) fl w hw, rfl⟩)
    (by rw [List.length_map]; exact hsize) luck hscore hshuffle args confirm hm hn hit hk hmin hfields hint v hw hp
  exact ⟨h1, a1, a2, av, html, h2, a3⟩

/-- **C87**, for data dumps and a model made before. -/
theorem sites_later_searched (t : SX.TextOps) (h0 : t.tokens "" = []) (scan : List SX.Post → List SX.Post)
    (hscan : ∀ l, (scan l).Perm l) (ds : List (SX.Dump × String)) (hds : SitesReadable t ds) (hne : allPosts ds ≠ [])
    (order : List String → List String) (ho : ∀ l, (order l).Perm l)
    (cfg : IndexCfg) (s : Schedule) (hf : Fair s) (hno : ∀ i, s.fault i = none) (f : File) (hu : Usable f)
    (hsize : ∀ c, (featuresIn f.data c).length ≤ 2 ^ 62)
    (hint : ReadsNumbers int) (v : Visit σ) (hw : FairWeb v.web) (hp : Draws v.web.pick) :
    let docs := (allPosts ds).zipIdx
    let corpus := Pipeline.addSites ds {}
    let indexed := Pipeline.indexSx t scan cfg s corpus.1 f
    let shows := fun (x : SitePost × Nat) (field : String) (y : Val) => ∃ w, y = .text w ∧ SxShows t x.1.doc field w
    corpus.2 = .ok () ∧ indexed.2 = .ok () ∧ ∃ html : SitePost × Nat → String,
      (∀ x ∈ docs, (∃ fs, html x = String.ofList (SX.postHtml order fs) ∧ RowShows x.1.dump x.1.url x.1.row (SX.tableRow order fs)) ∧
        (Unmarking x.1.dump x.1.url x.1.row → Finished (html x).toList ∧
          nodes (html x).toList = postNodes x.1.dump x.1.url x.1.row (order (tagsIn x.1.dump (x.1.row.parent.or x.1.row.id))))) ∧
      ((∃ c fl x, ValueIn f.data fl x c) →
        AnswersSearches (fun r => follow int (stackExchange t scan order corpus.1) indexed.1 { v with request := r }) shows docs (fun x => .int ((x.2 + 1 : Nat) : Int)) html v.web.rd indexed.1.data) := by
  intro docs corpus indexed shows
  obtain ⟨h1, html, h2, content, shown, S⟩ := sites_source t h0 scan hscan ds hds hne cfg s order ho
  obtain ⟨a1, a2⟩ := source_later (int := int) S hf hno f hu hsize hint v hw hp
  exact ⟨h1, a1, html, h2, a2⟩

/-- **C87**, for tweets: `index`, `model` and `serve`. -/
theorem tweets_searched (t : TW.TextOps) (template : TW.Doc → String) (tw : TW.Db) (hr : TwReadable t tw)
    (hver : ∃ v, tw.version = some v ∧ 15 ≤ v) (hne : tw.direct ≠ [])
    (vocabulary : List (String × Val))
    (hvoc : ∀ x ∈ collected tw, ∀ fl v, TwShows t tw x fl v → (fl, v) ∈ vocabulary) (hsize : vocabulary.length ≤ 2 ^ 62)
    (cfg : IndexCfg) (hpos : cfg.positions = true → ∀ x ∈ collected tw, NothingMissing tw x)
    (s : Schedule) (hf : Fair s) (hno : ∀ i, s.fault i = none) (f : File) (hu : Usable f)
    (luck : Luck Rat) (hscore : luck.score = exactScorer luck.chance) (hshuffle : ∀ l, (luck.shuffle l).Perm l)
    (args : ModelArgs) (confirm : Bool) (hm : f.data.clusters = [] ∨ (args.restart = true ∧ confirm = true))
    (hn : ∀ k, args.clusters = some k → 0 ≤ k) (hit : 1 ≤ args.iterations) (hk : 1 ≤ args.groupTopK) (hmin : 1 ≤ args.minDocs)
    (hfields : args.fields.Nodup)
    (hint : ReadsNumbers int) (v : Visit σ) (hw : FairWeb v.web) (hp : Draws v.web.pick) :
    let docs := collected tw
    let indexed := Pipeline.indexTw t cfg s tw f
    let modelled := Pipeline.model luck args confirm indexed.1
    let shows := TwShows t tw
    indexed.2 = .ok () ∧ modelled.2 = .done ∧ (∀ fl x, (∃ c, ValueIn modelled.1.data fl x c) ↔
      args.minDocs ≤ howMany (fun d => shows d fl x) docs ∧ (args.fields = [] ∨ fl ∈ args.fields)) ∧
    ∃ html : TW.Tweet → String,
      (∀ x ∈ docs, ∃ doc, TW.docOf t tw x.id = .ok doc ∧ doc.tweet = x ∧ html x = template doc) ∧
      ((∃ c fl x, ValueIn modelled.1.data fl x c) →
        AnswersSearches (fun r => follow int (twittersphere t template tw) modelled.1 { v with request := r }) shows docs (fun x => .int x.id) html v.web.rd modelled.1.data) := by
  intro docs indexed modelled shows
  obtain ⟨html, h2, content, shown, S⟩ := tweets_source t template tw hr hver hne cfg hpos s
  obtain ⟨a1, a2, av, a3⟩ := source_modelled (int := int) S hf hno f hu vocabulary hvoc hsize luck hscore hshuffle args confirm hm hn hit hk hmin hfields hint v hw hp
  exact ⟨a1, a2, av, html, h2, a3⟩

/-- **C87**, for tweets and a model made before. -/
theorem tweets_later_searched (t : TW.TextOps) (template : TW.Doc → String) (tw : TW.Db) (hr : TwReadable t tw)
    (hver : ∃ v, tw.version = some v ∧ 15 ≤ v) (hne : tw.direct ≠ [])
    (cfg : IndexCfg) (hpos : cfg.positions = true → ∀ x ∈ collected tw, NothingMissing tw x)
    (s : Schedule) (hf : Fair s) (hno : ∀ i, s.fault i = none) (f : File) (hu : Usable f)
    (hsize : ∀ c, (featuresIn f.data c).length ≤ 2 ^ 62)
    (hint : ReadsNumbers int) (v : Visit σ) (hw : FairWeb v.web) (hp : Draws v.web.pick) :
    let docs := collected tw
    let indexed := Pipeline.indexTw t cfg s tw f
    let shows := TwShows t tw
    indexed.2 = .ok () ∧ ∃ html : TW.Tweet → String,
      (∀ x ∈ docs, ∃ doc, TW.docOf t tw x.id = .ok doc ∧ doc.tweet = x ∧ html x = template doc) ∧
      ((∃ c fl x, ValueIn f.data fl x c) →
        AnswersSearches (fun r => follow int (twittersphere t template tw) indexed.1 { v with request := r }) shows docs (fun x => .int x.id) html v.web.rd indexed.1.data) := by
  intro docs indexed shows
  obtain ⟨html, h2, content, shown, S⟩ := tweets_source t template tw hr hver hne cfg hpos s
  obtain ⟨a1, a2⟩ := source_later (int := int) S hf hno f hu hsize hint v hw hp
  exact ⟨a1, html, h2, a2⟩

/-! ## Examples -/

/-- Three lines are modelled and searched: the search for `a` finds all three, that for `c` one and shows it; a search for a token
that does not occur finds nothing. -/
example (corpus : PlainText.Db × Except Err Unit) (hcorpus : Pipeline.create (· = ' ') 100 (demoLines.flatMap Line.render) none = corpus)
    (indexed : File × Except Err Unit) (hindexed : Pipeline.indexPlain letters ⟨2, 2, true⟩ demoSchedule corpus.1 File.empty = indexed)
    (modelled : File × Outcome) (hmodelled : Pipeline.model demoLuck { clusters := some 2, minDocs := 1 } false indexed.1 = modelled) :
    let ask := fun text => (follow readInt (plain letters corpus.1) modelled.1 (demoVisit (searchForm "0" none "text" text)) 3).2
    (∃ p, ask "a" = .index p ∧ p.total = 3) ∧
    (∃ p rs, ask "c" = .index p ∧ p.total = 1 ∧ p.results = .documents rs ∧ rs.map (·.2) = [(.int 2, "a c")]) ∧
    ((ask "x" = .failed .keyError) ∨ ∃ p, ask "x" = .index p ∧ p.results = .nothing) := by
  have main := text_file_searched (int := readInt) (· = ' ') 100 demoLines demoLines_ok _ (.inl rfl) (by decide +kernel)
    none letters (by decide +kernel) ⟨2, 2, true⟩ demoSchedule demo_fair (fun _ => rfl) File.empty (.inl ⟨rfl, rfl, rfl⟩) demoLuck rfl
    (fun _ => .refl _) { clusters := some 2, minDocs := 1 } false (.inl rfl) (by intro k hk; cases hk; decide) (by decide) (by decide)
    (by decide) (by decide) readInt_reads (demoVisit (.get "/")) demoWeb_fair draws_first
  dsimp only at main
  rw [hcorpus, hindexed, hmodelled] at main
  obtain ⟨-, -, -, hv, hs⟩ := main
  have hcount : ∀ w, howMany (fun d : Nat × String => "text" = "text" ∧ ∃ t ∈ letters d.2, Val.text w = .text t)
      (numbered (documents (· = ' ') demoLines)) = (numbered (documents (· = ' ') demoLines)).countP (fun d => w ∈ letters d.2) := by
    intro w
    rw [howMany]
    apply List.countP_congr
    intro d _
    simp
  have ha : (numbered (documents (· = ' ') demoLines)).countP (fun d => "a" ∈ letters d.2) = 3 := by decide +kernel
  have hc : (numbered (documents (· = ' ') demoLines)).countP (fun d => "c" ∈ letters d.2) = 1 := by decide +kernel
  obtain ⟨c, hca⟩ := (hv "text" (.text "a")).2 ⟨by rw [hcount, ha]; decide, .inl rfl⟩
  obtain ⟨-, -, found, missing, -, -⟩ := hs ⟨c, _, _, hca⟩
  intro ask
  refine ⟨?_, ?_, ?_⟩
  · obtain ⟨p, p1, p2⟩ := found "text" "a" ⟨(1, "b a"), by decide +kernel, rfl, "a", by decide +kernel, rfl⟩
    exact ⟨p, p1, by rw [p2.total, hcount, ha]⟩
  · obtain ⟨p, p1, p2⟩ := found "text" "c" ⟨(2, "a c"), by decide +kernel, rfl, "c", by decide +kernel, rfl⟩
    have ht : p.total = 1 := by rw [p2.total, hcount, hc]
    obtain ⟨rs, r1, r2, -, r3⟩ := p2.documents
    rw [ht] at r2
    obtain ⟨r, rfl⟩ := List.length_eq_one_iff.1 r2
    refine ⟨p, _, p1, ht, r1, ?_⟩
    obtain ⟨d, hd, ⟨-, t, ht', e⟩, e1, e2⟩ := r3 r (by simp)
    cases e
    have honly : ∀ d ∈ numbered (documents (· = ' ') demoLines), "c" ∈ letters d.2 → d = (2, "a c") := by decide +kernel
    have := honly d hd ht'
    subst this
    rw [List.map_singleton]
    exact congrArg (fun x => [x]) (Prod.ext e1 e2)
  · rcases missing "text" "x" (by
      rintro ⟨d, hd, -, t, ht, e⟩
      cases e
      exact (by decide +kernel : ∀ d ∈ numbered (documents (· = ' ') demoLines), "x" ∉ letters d.2) d hd ht) with h | ⟨p, h1, h2⟩
    · exact .inl h
    · exact .inr ⟨p, h1, h2.nothing⟩

/-- New lines under an older model (`earlierFile`): a token of the model that no longer occurs leads to the overview, a new one is found
although it is in no cluster. -/
example (corpus : PlainText.Db × Except Err Unit) (hcorpus : Pipeline.create (· = ' ') 100 (demoLines.flatMap Line.render) none = corpus)
    (indexed : File × Except Err Unit) (hindexed : Pipeline.indexPlain letters ⟨2, 2, true⟩ demoSchedule corpus.1 earlierFile = indexed) :
    let ask := fun text => (follow readInt (plain letters corpus.1) indexed.1 (demoVisit (searchForm "0" none "text" text)) 3).2
    (∃ p, ask "c" = .index p ∧ p.total = 1) ∧ ((ask "x" = .failed .keyError) ∨ ∃ p, ask "x" = .index p ∧ p.total = 0) := by
  have main := text_file_later_searched (int := readInt) (· = ' ') 100 demoLines demoLines_ok _ (.inl rfl) (by decide +kernel)
    none letters ⟨2, 2, true⟩ demoSchedule demo_fair (fun _ => rfl) earlierFile earlierFile_usable earlierFile_size
    readInt_reads (demoVisit (.get "/")) demoWeb_fair draws_first
  dsimp only at main
  rw [hcorpus, hindexed] at main
  obtain ⟨-, -, hs⟩ := main
  obtain ⟨-, -, found, missing, -, -⟩ := hs ⟨1, _, _, earlierFile_values.1⟩
  intro ask
  refine ⟨?_, ?_⟩
  · obtain ⟨p, p1, p2⟩ := found "text" "c" ⟨(2, "a c"), by decide +kernel, rfl, "c", by decide +kernel, rfl⟩
    refine ⟨p, p1, ?_⟩
    rw [p2.total, howMany]
    exact Eq.trans (List.countP_congr (by intro d _; simp))
      (by decide +kernel : (numbered (documents (· = ' ') demoLines)).countP (fun d => "c" ∈ letters d.2) = 1)
  · rcases missing "text" "x" (by
      rintro ⟨d, hd, -, t, ht, e⟩
      cases e
      exact (by decide +kernel : ∀ d ∈ numbered (documents (· = ' ') demoLines), "x" ∉ letters d.2) d hd ht) with h | ⟨p, h1, h2⟩
    · exact .inl h
    · exact .inr ⟨p, h1, h2.total⟩

/-- Under that model, a search for `c` on the page of the cluster 1 (of `a` and `y`) finds the line with `a` and `c`, and lists `a`. -/
example (corpus : PlainText.Db × Except Err Unit) (hcorpus : Pipeline.create (· = ' ') 100 (demoLines.flatMap Line.render) none = corpus)
    (indexed : File × Except Err Unit) (hindexed : Pipeline.indexPlain letters ⟨2, 2, true⟩ demoSchedule corpus.1 earlierFile = indexed) :
    ∃ p, (follow readInt (plain letters corpus.1) indexed.1 (demoVisit (searchForm "0" (some 1) "text" "c")) 3).2 = .cluster p ∧
      p.cluster = 1 ∧ 0 < p.total ∧ ("text", Val.text "a") ∈ listedValues p.features := by
  have main := text_file_later_searched (int := readInt) (· = ' ') 100 demoLines demoLines_ok _ (.inl rfl) (by decide +kernel)
    none letters ⟨2, 2, true⟩ demoSchedule demo_fair (fun _ => rfl) earlierFile earlierFile_usable earlierFile_size
    readInt_reads (demoVisit (.get "/")) demoWeb_fair draws_first
  dsimp only at main
  rw [hcorpus, hindexed] at main
  obtain ⟨-, -, hs⟩ := main
  have later := text_file_later (int := readInt) (· = ' ') 100 demoLines demoLines_ok _ (.inl rfl) (by decide +kernel)
    none earlierFile earlierFile_usable earlierFile_size letters ⟨2, 2, true⟩ demoSchedule demo_fair (fun _ => rfl)
    readInt_reads (demoVisit (.get "/")) demoWeb_fair draws_first
  dsimp only at later
  rw [hcorpus, hindexed] at later
  obtain ⟨-, -, -, -, hvalues, -⟩ := later
  have hva := (hvalues _ _ _).2 earlierFile_values.1
  obtain ⟨w1, w2⟩ := (hs ⟨1, _, _, earlierFile_values.1⟩).within 1 "text" "c" (by decide) ⟨_, _, hva⟩
  rcases w2 with h | ⟨p, p1, p2⟩
  · exact absurd h (w1 ⟨(2, "a c"), by decide +kernel, rfl, "c", by decide +kernel, rfl⟩)
  · refine ⟨p, p1, p2.cluster, ?_, ?_⟩
    · rw [p2.total, howMany, List.countP_pos_iff]
      refine ⟨(2, "a c"), by decide +kernel, ?_⟩
      simp only [decide_eq_true_eq]
      exact ⟨⟨trivial, "c", by decide +kernel, rfl⟩, "text", .text "a", hva, rfl, "a", by decide +kernel, rfl⟩
    · exact (p2.values.2 _ _).2 ⟨hva, .inr ⟨(2, "a c"), by decide +kernel, ⟨rfl, "c", by decide +kernel, rfl⟩, rfl, "a", by decide +kernel, rfl⟩⟩

/-- The two sites: a search for the site "two" finds its post. -/
example (corpus : SX.Db × Except Err Unit) (hcorpus : Pipeline.addSites twoSites {} = corpus)
    (indexed : File × Except Err Unit) (hindexed : Pipeline.indexSx fieldOps List.reverse ⟨2, 2, true⟩ demoSchedule corpus.1 File.empty = indexed)
    (modelled : File × Outcome) (hmodelled : Pipeline.model demoLuck { clusters := some 2, minDocs := 1 } false indexed.1 = modelled) :
    ∃ p, (follow readInt (stackExchange fieldOps List.reverse List.reverse corpus.1) modelled.1
        (demoVisit (searchForm "0" none "Site" "two")) 3).2 = .index p ∧ 1 ≤ p.total ∧ ∃ L, p.clusters = .ranked L ∧ L ≠ [] := by
  have main := sites_searched (int := readInt) fieldOps rfl List.reverse List.reverse_perm twoSites
    twoSites_readable (by decide +kernel) List.reverse List.reverse_perm twoVocabulary twoVocabulary_covers (by decide +kernel) ⟨2, 2, true⟩
    demoSchedule demo_fair (fun _ => rfl) File.empty (.inl ⟨rfl, rfl, rfl⟩) demoLuck rfl (fun _ => .refl _)
    { clusters := some 2, minDocs := 1 } false (.inl rfl) (by intro k hk; cases hk; decide) (by decide) (by decide) (by decide) (by decide)
    readInt_reads (demoVisit (.get "/")) demoWeb_fair draws_first
  dsimp only at main
  rw [hcorpus, hindexed, hmodelled] at main
  obtain ⟨-, -, -, hv, html, -, hs⟩ := main
  have hmem : ((⟨otherDump, "two", 2, (considered otherDump)[0]'(by decide +kernel)⟩, 2) : SitePost × Nat) ∈ (allPosts twoSites).zipIdx := by
    rw [List.mk_mem_zipIdx_iff_getElem?]
    rfl
  have one : ∀ P : SitePost × Nat → Prop, P (⟨otherDump, "two", 2, (considered otherDump)[0]'(by decide +kernel)⟩, 2) →
      1 ≤ howMany P (allPosts twoSites).zipIdx := by
    intro P hP
    rw [howMany, Nat.one_le_iff_ne_zero, ← Nat.pos_iff_ne_zero, List.countP_pos_iff]
    exact ⟨_, hmem, by simpa using hP⟩
  obtain ⟨c, hcs⟩ := (hv "Site" (.text "two")).2 ⟨one _ ⟨"two", rfl, .site⟩, .inl rfl⟩
  obtain ⟨p, p1, p2⟩ := (hs ⟨c, _, _, hcs⟩).found "Site" "two" ⟨_, hmem, "two", rfl, .site⟩
  refine ⟨p, p1, by rw [p2.total]; exact one _ ⟨"two", rfl, .site⟩, ?_⟩
  obtain ⟨L, l1, -, l3, -⟩ := p2.clusters
  refine ⟨L, l1, ?_⟩
  rintro rfl
  have := (l3 c).2 ⟨_, hmem, ⟨"two", rfl, .site⟩, "Site", .text "two", hcs, "two", rfl, .site⟩
  simp at this

/-- The two sites under an older model (`earlierFile`), which has none of their values: the search finds the post, in no cluster. -/
example (corpus : SX.Db × Except Err Unit) (hcorpus : Pipeline.addSites twoSites {} = corpus)
    (indexed : File × Except Err Unit) (hindexed : Pipeline.indexSx fieldOps List.reverse ⟨2, 2, true⟩ demoSchedule corpus.1 earlierFile = indexed) :
    ∃ p rs, (follow readInt (stackExchange fieldOps List.reverse List.reverse corpus.1) indexed.1
        (demoVisit (searchForm "0" none "Site" "two")) 3).2 = .index p ∧ p.results = .documents rs ∧ rs ≠ [] := by
  have main := sites_later_searched (int := readInt) fieldOps rfl List.reverse List.reverse_perm twoSites
    twoSites_readable (by decide +kernel) List.reverse List.reverse_perm ⟨2, 2, true⟩ demoSchedule demo_fair (fun _ => rfl) earlierFile
    earlierFile_usable earlierFile_size readInt_reads (demoVisit (.get "/")) demoWeb_fair draws_first
  dsimp only at main
  rw [hcorpus, hindexed] at main
  obtain ⟨-, -, html, -, hs⟩ := main
  have hmem : ((⟨otherDump, "two", 2, (considered otherDump)[0]'(by decide +kernel)⟩, 2) : SitePost × Nat) ∈ (allPosts twoSites).zipIdx := by
    rw [List.mk_mem_zipIdx_iff_getElem?]
    rfl
  obtain ⟨p, p1, p2⟩ := (hs ⟨1, _, _, earlierFile_values.1⟩).found "Site" "two" ⟨_, hmem, "two", rfl, .site⟩
  obtain ⟨rs, r1, r2, -⟩ := p2.documents
  refine ⟨p, rs, p1, r1, ?_⟩
  rintro rfl
  have : 0 < p.total := by
    rw [p2.total, howMany, List.countP_pos_iff]
    have hsite : SxShows fieldOps (⟨otherDump, "two", 2, (considered otherDump)[0]'(by decide +kernel)⟩ : SitePost).doc "Site" "two" := .site
    exact ⟨_, hmem, by simpa using hsite⟩
  simp only [List.length_nil] at r2
  omega

/-- Two tweets: a search for an author finds the tweet, one for the number of its conversation does not. -/
example (indexed : File × Except Err Unit) (hindexed : Pipeline.indexTw twOps ⟨2, 2, true⟩ demoSchedule linkedTweets File.empty = indexed)
    (modelled : File × Outcome) (hmodelled : Pipeline.model demoLuck { clusters := some 2, minDocs := 1 } false indexed.1 = modelled) :
    let ask := fun field text => (follow readInt (twittersphere twOps (fun d => toString d.tweet.id) linkedTweets) modelled.1
        (demoVisit (searchForm "0" none field text)) 3).2
    (∃ p, ask "by" "ann" = .index p ∧ 0 < p.total) ∧
    (∃ x ∈ collected linkedTweets, TwShows twOps linkedTweets x "conversation_id" (.int 1)) ∧
    (ask "conversation_id" "1" = .failed .keyError ∨ ∃ p, ask "conversation_id" "1" = .index p ∧ p.total = 0) := by
  obtain ⟨hr, hver, hne, hpos, -, ⟨voc, hsize, hvoc⟩, -⟩ := linkedTweets_indexable
  have main := tweets_searched (int := readInt) twOps (fun d => toString d.tweet.id) linkedTweets hr hver hne voc hvoc hsize ⟨2, 2, true⟩
    (fun _ => hpos) demoSchedule demo_fair (fun _ => rfl) File.empty (.inl ⟨rfl, rfl, rfl⟩) demoLuck rfl (fun _ => .refl _)
    { clusters := some 2, minDocs := 1 } false (.inl rfl) (by intro k hk; cases hk; decide) (by decide) (by decide) (by decide) (by decide)
    readInt_reads (demoVisit (.get "/")) demoWeb_fair draws_first
  dsimp only at main
  rw [hindexed, hmodelled] at main
  obtain ⟨-, -, hv, html, -, hs⟩ := main
  have hmem : (⟨1, 10, "r", "2020", "hello", some 1, none, some 2, some 3⟩ : TW.Tweet) ∈ collected linkedTweets := by decide +kernel
  have hby : TwShows twOps linkedTweets ⟨1, 10, "r", "2020", "hello", some 1, none, some 2, some 3⟩ "by" (.text "ann") :=
    .author ⟨10, "r", some "ann"⟩ "ann" (by decide) rfl rfl
  have hpos' : 0 < howMany (fun d => TwShows twOps linkedTweets d "by" (.text "ann")) (collected linkedTweets) := by
    rw [howMany, List.countP_pos_iff]
    exact ⟨_, hmem, by simpa using hby⟩
  obtain ⟨c, hc⟩ := (hv "by" (.text "ann")).2 ⟨hpos', .inl rfl⟩
  obtain ⟨-, -, found, missing, -, -⟩ := hs ⟨c, _, _, hc⟩
  intro ask
  refine ⟨?_, ⟨_, hmem, .conversation 1 rfl rfl⟩, ?_⟩
  · obtain ⟨p, p1, p2⟩ := found "by" "ann" ⟨_, hmem, hby⟩
    exact ⟨p, p1, by rw [p2.total]; exact hpos'⟩
  · rcases missing "conversation_id" "1" (by
      rintro ⟨d, hd, h⟩
      generalize hf : "conversation_id" = fl at h
      generalize hx : Val.text "1" = x at h
      cases h with
      | created g n d' r h1 h2 h3 => ?_
      | _ => first | (simp at hf; done) | (simp at hx; done)
      have : ("created_" ++ g).toList.head? = some 'c' ∧ ("created_" ++ g).toList[1]? = some 'r' := by simp
      rw [← hf] at this
      exact absurd this.2 (by decide)) with h | ⟨p, h1, h2⟩
    · exact .inl h
    · exact .inr ⟨p, h1, h2.total⟩

/-- Two tweets under an older model. -/
example (indexed : File × Except Err Unit) (hindexed : Pipeline.indexTw twOps ⟨2, 2, true⟩ demoSchedule linkedTweets earlierFile = indexed) :
    indexed.2 = .ok () ∧ ∃ p, (follow readInt (twittersphere twOps (fun d => toString d.tweet.id) linkedTweets) indexed.1
        (demoVisit (searchForm "0" none "by" "ann")) 3).2 = .index p ∧ 0 < p.total := by
  have main := tweets_later_searched (int := readInt) twOps (fun d => toString d.tweet.id) linkedTweets
    linkedTweets_indexable.1 linkedTweets_indexable.2.1 linkedTweets_indexable.2.2.1 ⟨2, 2, true⟩ (fun _ => linkedTweets_indexable.2.2.2.1)
    demoSchedule demo_fair (fun _ => rfl) earlierFile earlierFile_usable earlierFile_size
    readInt_reads (demoVisit (.get "/")) demoWeb_fair draws_first
  dsimp only at main
  rw [hindexed] at main
  obtain ⟨h, html, -, hs⟩ := main
  have hmem : (⟨1, 10, "r", "2020", "hello", some 1, none, some 2, some 3⟩ : TW.Tweet) ∈ collected linkedTweets := by decide +kernel
  have hby : TwShows twOps linkedTweets ⟨1, 10, "r", "2020", "hello", some 1, none, some 2, some 3⟩ "by" (.text "ann") :=
    .author ⟨10, "r", some "ann"⟩ "ann" (by decide) rfl rfl
  obtain ⟨p, p1, p2⟩ := (hs ⟨1, _, _, earlierFile_values.1⟩).found "by" "ann" ⟨_, hmem, hby⟩
  refine ⟨h, p, p1, ?_⟩
  rw [p2.total, howMany, List.countP_pos_iff]
  exact ⟨_, hmem, by simpa using hby⟩

end Hyperreal.Props
