import Verif.Spec.SearchScreen
import Verif.Props.SearchAll
import Verif.Props.ScreenLater

/-! # C88: the results of a search on the screen -/

namespace Hyperreal.Props
open Atomic Spec Spec.Page Cli Migrate Web Serve Pages PlainText

variable {int : String → Option Int} {σ : Type} [LinearOrder σ]

theorem index_split (title : String) (nav e box f g : List Node) : ∃ before after,
    pageTags title nav (e ++ box ++ f ++ g) = before ++ box ++ after ∧ before ++ after = pageTags title nav (e ++ [] ++ f ++ g) :=
  ⟨⟨"", [], ""⟩ :: (tags (fun _ => title) headTags ++ tags (fun _ => "") bodyTags ++ nav ++ tags (fun _ => "") mainTags ++ e),
    f ++ g ++ tags (fun _ => "") footTags, by simp [pageTags], by simp [pageTags]⟩

/-- The overview with results, as it is read. -/
theorem screen_of_search {α : Type} {belongs : α → Prop} {docs : List α} {key : α → Val} {render : α → String}
    {n : Nat} {p : IndexPage σ} (h3 : p.type = "document") (h4 : p.total = howMany belongs docs)
    (hdocs : ∃ rs, p.results = .documents rs ∧ rs.length = min n p.total ∧ (rs.map (·.2.1)).Nodup ∧
      ∀ r ∈ rs, ∃ d ∈ docs, belongs d ∧ r.2.1 = key d ∧ r.2.2 = render d)
    (hn : 0 < n) (ht : 0 < p.total)
    (fmt : Format σ) (asDoc : String → Html.Doc) (i : String) (item : α → List Node → Prop)
    (hitem : ∀ d ∈ docs, ∃ ns, item d ns ∧ Whole (Html.item (asDoc (render d))) ns) :
    ∃ html, indexHtml fmt asDoc i p = some html ∧
      Displays belongs docs item n (indexPageTags fmt asDoc i { p with results := .nothing }) (nodes html) := by
  obtain ⟨pclusters, pres, ptype, ptotal, pfeat, pcluster, pfields⟩ := p
  obtain ⟨rs, h5, h6, h7, h8⟩ := hdocs
  simp only at h3 h4 h5 h6 h7 h8 ht
  subst h3 h5
  obtain ⟨m, e1, e2⟩ := list_witnesses (Q := fun (r : Nat × Val × String) (y : α × List Node) => (y.1 ∈ docs ∧ belongs y.1) ∧
      r.2.1 = key y.1 ∧ item y.1 y.2 ∧ Whole (Html.item (asDoc r.2.2)) y.2) rs (by
    intro r hr
    obtain ⟨d, d1, d2, d3, d4⟩ := h8 r hr
    obtain ⟨ns, n1, n2⟩ := hitem d d1
    exact ⟨(d, ns), ⟨d1, d2⟩, d3, n1, by rw [d4]; exact n2⟩)
  subst e1
  have hm : m ≠ [] := by
    rintro rfl
    simp only [List.map_nil, List.length_nil] at h6
    omega
  obtain ⟨x, hx, hw⟩ := documentBox_whole asDoc m (·.1) ptotal hm (fun y => y.2.2) (fun y hy => (e2 y hy).2.2.2)
  unfold indexHtml
  dsimp only
  rw [hx]
  refine ⟨_, rfl, m.map (fun y => y.2.1), m.map (fun y => y.2.2), ?_⟩
  rw [← h4]
  unfold indexPageTags
  rw [overviewEntries_eq]
  have hpage := frame_whole "Feature Clustering" _ _ _ _ (indexNavLines_whole (fun _ => i))
    (((((contextSearch_whole i pfields none).append (indexEditLines_whole (fun _ => i))).append hw).append
      (whole_flatMap (listedEntries fmt pclusters) (fun x =>
        fill (fun _ => "") ["<li>"] ++ listedCluster i pfeat pcluster x ++ fill (fun _ => "") ["</li>"])
        (fun x => ⟨"li", [], ""⟩ :: listedTags i pfeat pcluster x ++ [⟨"/li", [], ""⟩]) fun x _ =>
        Whole.append (es := _ :: _) (Whole.append (es := [_]) (plain_whole (fun _ => "") ["<li>"] _ (by decide +kernel) (by decide +kernel))
          (listedCluster_whole _ _ _ _)) (plain_whole (fun _ => "") ["</li>"] _ (by decide +kernel) (by decide +kernel)))).append
      (plain_whole (fun _ => "") ["</ul>"] [⟨"/ul", [], ""⟩] (by decide +kernel) (by decide +kernel)))
  obtain ⟨before, after, b1, b2⟩ := index_split "Feature Clustering" (tags (fun _ => i) indexNavTags)
    (searchFormTags i pfields none ++ tags (fun _ => i) indexEditTags)
    (documentBox ptotal (m.map (fun y => y.2.2))) ((listedEntries fmt pclusters).flatMap (fun x => ⟨"li", [], ""⟩ :: listedTags i pfeat pcluster x ++ [⟨"/li", [], ""⟩]))
    [⟨"/ul", [], ""⟩]
  refine ⟨before, after, ?_, ?_, ?_, ?_, b2, hpage.trans b1⟩
  · rw [List.map_map] at h7
    have : (m.map (fun y => key y.2.1)).Nodup := by
      rw [show m.map (fun y => key y.2.1) = m.map ((fun x => x.2.1) ∘ fun x => x.1) from
        List.map_congr_left fun y hy => (e2 y hy).2.1.symm]
      exact h7
    rw [show m.map (fun y => key y.2.1) = (m.map (fun y => y.2.1)).map key from (List.map_map ..).symm] at this
    exact List.Nodup.of_map _ this
  · intro d hd
    obtain ⟨y, hy, rfl⟩ := List.mem_map.1 hd
    exact (e2 y hy).1
  · rw [List.length_map]
    simpa using h6
  · rw [List.forall₂_map_left_iff, List.forall₂_map_right_iff, List.forall₂_same]
    exact fun y hy => (e2 y hy).2.2.1

theorem screen_of_overview {α : Type} {shows : α → String → Val → Prop} {docs : List α} {db : DB} {k : Int} {p : IndexPage σ}
    (h : IsOverviewPage shows docs db k p) (fmt : Format σ) (asDoc : String → Html.Doc) (i : String) :
    ∃ html, indexHtml fmt asDoc i p = some html ∧ nodes html = indexPageTags fmt asDoc i p := by
  have hbox : resultBox asDoc p.type p.total p.results = some [] := by rw [h.nothing]; rfl
  have hhtml : ∃ html, indexHtml fmt asDoc i p = some html := by
    unfold indexHtml
    rw [hbox]
    exact ⟨_, rfl⟩
  obtain ⟨html, hh⟩ := hhtml
  exact ⟨html, hh, index_page_read fmt asDoc i p html hh (by rw [h.nothing]; trivial)⟩

/-- The answers to searches, on the screen. -/
theorem searches_on_screen {α : Type} {ask : Request → Nat → File × Answer σ} {shows : α → String → Val → Prop} {docs : List α}
    {key : α → Val} {render : α → String} {rd : Rat → σ} {db : DB} (h : AnswersSearches ask shows docs key render rd db)
    (fmt : Format σ) (asDoc : String → Html.Doc) (item : α → List Node → Prop)
    (hitem : ∀ d ∈ docs, ∃ ns, item d ns ∧ Whole (Html.item (asDoc (render d))) ns) :
    ShowsSearches ask shows docs key render rd db fmt asDoc item where
  overview := by
    obtain ⟨p, p1, p2⟩ := h.overview
    obtain ⟨html, q1, q2⟩ := screen_of_overview p2 fmt asDoc "0"
    exact ⟨p, html, p1, p2, q1, q2⟩
  found := by
    classical
    intro field text hd
    obtain ⟨p, p1, p2⟩ := h.found field text hd
    have ht : 0 < p.total := by
      obtain ⟨d, d1, d2⟩ := hd
      rw [p2.total, howMany, List.countP_pos_iff]
      exact ⟨d, d1, by simpa using d2⟩
    obtain ⟨html, q1, q2⟩ := screen_of_search p2.kind p2.total p2.documents (by decide) ht fmt asDoc "0" item hitem
    exact ⟨p, html, p1, p2, q1, q2⟩
  missing := by
    intro field text hd
    rcases h.missing field text hd with h1 | ⟨p, p1, p2⟩
    · exact .inl h1
    · obtain ⟨html, q1, q2⟩ := screen_of_overview p2 fmt asDoc "0"
      exact .inr ⟨p, html, p1, p2, q1, q2⟩
  within := by
    intro c field text hc hv
    obtain ⟨h1, h2⟩ := h.within c field text hc hv
    refine ⟨h1, ?_⟩
    rcases h2 with h2 | ⟨p, p1, p2⟩
    · exact .inl h2
    · exact .inr ⟨p, p1, p2, fun feature => screen_if_any p2.cluster p2.kind p2.total p2.documents (by decide) fmt asDoc "0" feature item hitem⟩

/-- **C88, text.** From a text file to the answers of a search on the screen: after `create`, `index` and `model`, the overview and the
answer to every search can be made into a page, and a browser reads the page of C87 with one box that says how many lines have
the token searched for and lists 5 of them (30 within a cluster), or all if there are fewer, as the very text of the line.
The full C88 also covers data dumps and tweets, which may contain markup that is not escaped (C63, C84). -/
theorem text_file_searched_on_screen (space : Char → Bool) (limit : Nat) (ls : List Line) (hls : ∀ l ∈ ls, l.Ok limit)
    (file : List Char) (hfile : file = ls.flatMap Line.render ∨ file ++ ['\n'] = ls.flatMap Line.render)
    (hne : documents space ls ≠ []) (old : PlainText.Db) (tokens : String → List String)
    (hsize : ((documents space ls).flatMap tokens).length ≤ 2 ^ 62)
    (cfg : IndexCfg) (s : Schedule) (hf : Fair s) (hno : ∀ i, s.fault i = none) (f : File) (hu : Usable f)
    (luck : Luck Rat) (hscore : luck.score = exactScorer luck.chance) (hshuffle : ∀ l, (luck.shuffle l).Perm l)
    (args : ModelArgs) (confirm : Bool) (hm : f.data.clusters = [] ∨ (args.restart = true ∧ confirm = true))
    (hn : ∀ k, args.clusters = some k → 0 ≤ k) (hit : 1 ≤ args.iterations) (hk : 1 ≤ args.groupTopK) (hmin : 1 ≤ args.minDocs)
    (hfields : args.fields.Nodup)
    (hint : ReadsNumbers int) (v : Visit σ) (hw : FairWeb v.web) (hp : Draws v.web.pick) (fmt : Format σ) :
    let docs := numbered (documents space ls)
    let corpus := Pipeline.create space limit file old
    let indexed := Pipeline.indexPlain tokens cfg s corpus.1 f
    let modelled := Pipeline.model luck args confirm indexed.1
    let shows := fun (d : Nat × String) (field : String) (x : Val) => field = "text" ∧ ∃ t ∈ tokens d.2, x = .text t
    (∃ c fl x, ValueIn modelled.1.data fl x c) →
      ShowsSearches (fun r => follow int (plain tokens corpus.1) modelled.1 { v with request := r }) shows docs (fun d => .int d.1) (·.2) v.web.rd modelled.1.data
      fmt .text
      (fun d ns => ns = [⟨"li", [], d.2⟩, ⟨"/li", [], ""⟩]) := by
  intro docs corpus indexed modelled shows hc
  obtain ⟨-, -, -, -, h⟩ := text_file_searched (int := int) space limit ls hls file hfile hne old tokens hsize cfg s hf hno f hu luck hscore hshuffle args confirm hm hn hit hk hmin hfields hint v hw hp
  exact searches_on_screen (h hc) fmt .text _ (fun d _ => ⟨_, rfl, item_whole (.text d.2) (fun s hs => by cases hs)⟩)

/-- **C88, text**, with a model made before. -/
theorem text_file_later_searched_on_screen (space : Char → Bool) (limit : Nat) (ls : List Line) (hls : ∀ l ∈ ls, l.Ok limit)
    (file : List Char) (hfile : file = ls.flatMap Line.render ∨ file ++ ['\n'] = ls.flatMap Line.render)
    (hne : documents space ls ≠ []) (old : PlainText.Db) (tokens : String → List String)
    (cfg : IndexCfg) (s : Schedule) (hf : Fair s) (hno : ∀ i, s.fault i = none) (f : File) (hu : Usable f)
    (hsize : ∀ c, (featuresIn f.data c).length ≤ 2 ^ 62)
    (hint : ReadsNumbers int) (v : Visit σ) (hw : FairWeb v.web) (hp : Draws v.web.pick) (fmt : Format σ) :
    let docs := numbered (documents space ls)
    let corpus := Pipeline.create space limit file old
    let indexed := Pipeline.indexPlain tokens cfg s corpus.1 f
    let shows := fun (d : Nat × String) (field : String) (x : Val) => field = "text" ∧ ∃ t ∈ tokens d.2, x = .text t
    (∃ c fl x, ValueIn f.data fl x c) →
      ShowsSearches (fun r => follow int (plain tokens corpus.1) indexed.1 { v with request := r }) shows docs (fun d => .int d.1) (·.2) v.web.rd indexed.1.data
      fmt .text
      (fun d ns => ns = [⟨"li", [], d.2⟩, ⟨"/li", [], ""⟩]) := by
  intro docs corpus indexed shows hc
  obtain ⟨-, -, h⟩ := text_file_later_searched (int := int) space limit ls hls file hfile hne old tokens cfg s hf hno f hu hsize hint v hw hp
  exact searches_on_screen (h hc) fmt .text _ (fun d _ => ⟨_, rfl, item_whole (.text d.2) (fun s hs => by cases hs)⟩)

/-- **C88, Stack Exchange.** The same for the data dumps of any number of sites: a browser reads of each post in the box exactly what the
dump of its own site says about it (`postNodes`, C63), if no post has a name, license, tag or address with markup and no body
leaves a tag open. -/
theorem sites_searched_on_screen_partial (t : SX.TextOps) (h0 : t.tokens "" = []) (scan : List SX.Post → List SX.Post)
    (hscan : ∀ l, (scan l).Perm l) (ds : List (SX.Dump × String)) (hds : SitesReadable t ds) (hne : allPosts ds ≠ [])
    (order : List String → List String) (ho : ∀ l, (order l).Perm l)
    (vocabulary : List (String × String))
    (hvoc : ∀ r ∈ allPosts ds, ∀ fl w, SxShows t r.doc fl w → (fl, w) ∈ vocabulary) (hsize : vocabulary.length ≤ 2 ^ 62)
    (cfg : IndexCfg) (s : Schedule) (hf : Fair s) (hno : ∀ i, s.fault i = none) (f : File) (hu : Usable f)
    (luck : Luck Rat) (hscore : luck.score = exactScorer luck.chance) (hshuffle : ∀ l, (luck.shuffle l).Perm l)
    (args : ModelArgs) (confirm : Bool) (hm : f.data.clusters = [] ∨ (args.restart = true ∧ confirm = true))
    (hn : ∀ k, args.clusters = some k → 0 ≤ k) (hit : 1 ≤ args.iterations) (hk : 1 ≤ args.groupTopK) (hmin : 1 ≤ args.minDocs)
    (hfields : args.fields.Nodup)
    (hint : ReadsNumbers int) (v : Visit σ) (hw : FairWeb v.web) (hp : Draws v.web.pick) (fmt : Format σ)
    (hmark : ∀ r ∈ allPosts ds, Unmarking r.dump r.url r.row) :
    let docs := (allPosts ds).zipIdx
    let corpus := Pipeline.addSites ds {}
    let indexed := Pipeline.indexSx t scan cfg s corpus.1 f
    let modelled := Pipeline.model luck args confirm indexed.1
    let shows := fun (x : SitePost × Nat) (field : String) (y : Val) => ∃ w, y = .text w ∧ SxShows t x.1.doc field w
    (∃ c fl x, ValueIn modelled.1.data fl x c) →
      ∃ html, ShowsSearches (fun r => follow int (stackExchange t scan order corpus.1) modelled.1 { v with request := r }) shows docs (fun x => .int ((x.2 + 1 : Nat) : Int)) html v.web.rd modelled.1.data
      fmt (fun s => .markup s.toList)
      (fun x ns => ∃ tags, tags.Perm (tagsIn x.1.dump (x.1.row.parent.or x.1.row.id)) ∧
        ns = inItem (postNodes x.1.dump x.1.url x.1.row tags)) := by
  intro docs corpus indexed modelled shows hc
  obtain ⟨-, -, -, -, html, hr, h⟩ := sites_searched (int := int) t h0 scan hscan ds hds hne order ho vocabulary hvoc hsize cfg s hf hno f hu luck hscore hshuffle args confirm hm hn hit hk hmin hfields hint v hw hp
  refine ⟨html, searches_on_screen (h hc) fmt (fun s => .markup s.toList) _ (fun x hx => ?_)⟩
  obtain ⟨m1, m2⟩ := (hr x hx).2 (hmark x.1 (List.fst_mem_of_mem_zipIdx hx))
  refine ⟨_, ⟨_, ho _, rfl⟩, ?_⟩
  rw [← m2]
  exact item_whole (.markup (html x).toList) (fun s hs => by cases hs; exact m1)

/-- **C88, Stack Exchange**, with a model made before. -/
theorem sites_later_searched_on_screen_partial (t : SX.TextOps) (h0 : t.tokens "" = []) (scan : List SX.Post → List SX.Post)
    (hscan : ∀ l, (scan l).Perm l) (ds : List (SX.Dump × String)) (hds : SitesReadable t ds) (hne : allPosts ds ≠ [])
    (order : List String → List String) (ho : ∀ l, (order l).Perm l)
    (cfg : IndexCfg) (s : Schedule) (hf : Fair s) (hno : ∀ i, s.fault i = none) (f : File) (hu : Usable f)
    (hsize : ∀ c, (featuresIn f.data c).length ≤ 2 ^ 62)
    (hint : ReadsNumbers int) (v : Visit σ) (hw : FairWeb v.web) (hp : Draws v.web.pick) (fmt : Format σ)
    (hmark : ∀ r ∈ allPosts ds, Unmarking r.dump r.url r.row) :
    let docs := (allPosts ds).zipIdx
    let corpus := Pipeline.addSites ds {}
    let indexed := Pipeline.indexSx t scan cfg s corpus.1 f
    let shows := fun (x : SitePost × Nat) (field : String) (y : Val) => ∃ w, y = .text w ∧ SxShows t x.1.doc field w
    (∃ c fl x, ValueIn f.data fl x c) →
      ∃ html, ShowsSearches (fun r => follow int (stackExchange t scan order corpus.1) indexed.1 { v with request := r }) shows docs (fun x => .int ((x.2 + 1 : Nat) : Int)) html v.web.rd indexed.1.data
      fmt (fun s => .markup s.toList)
      (fun x ns => ∃ tags, tags.Perm (tagsIn x.1.dump (x.1.row.parent.or x.1.row.id)) ∧
        ns = inItem (postNodes x.1.dump x.1.url x.1.row tags)) := by
  intro docs corpus indexed shows hc
  obtain ⟨-, -, html, hr, h⟩ := sites_later_searched (int := int) t h0 scan hscan ds hds hne order ho cfg s hf hno f hu hsize hint v hw hp
  refine ⟨html, searches_on_screen (h hc) fmt (fun s => .markup s.toList) _ (fun x hx => ?_)⟩
  obtain ⟨m1, m2⟩ := (hr x hx).2 (hmark x.1 (List.fst_mem_of_mem_zipIdx hx))
  refine ⟨_, ⟨_, ho _, rfl⟩, ?_⟩
  rw [← m2]
  exact item_whole (.markup (html x).toList) (fun s hs => by cases hs; exact m1)

/-- **C88, tweets.** The same for tweets: a browser reads of each tweet in the box its own data and the present profile of its author
(`tweetNodes`, C84), if no tweet or profile has a text that ends a tag or attribute. -/
theorem tweets_searched_on_screen_partial (t : TW.TextOps) (x : TW.Display) (tw : TW.Db) (hr : TwReadable t tw)
    (hver : ∃ v, tw.version = some v ∧ 15 ≤ v) (hne : tw.direct ≠ [])
    (vocabulary : List (String × Val))
    (hvoc : ∀ y ∈ collected tw, ∀ fl v, TwShows t tw y fl v → (fl, v) ∈ vocabulary) (hsize : vocabulary.length ≤ 2 ^ 62)
    (cfg : IndexCfg) (hpos : cfg.positions = true → ∀ y ∈ collected tw, NothingMissing tw y)
    (s : Schedule) (hf : Fair s) (hno : ∀ i, s.fault i = none) (f : File) (hu : Usable f)
    (luck : Luck Rat) (hscore : luck.score = exactScorer luck.chance) (hshuffle : ∀ l, (luck.shuffle l).Perm l)
    (args : ModelArgs) (confirm : Bool) (hm : f.data.clusters = [] ∨ (args.restart = true ∧ confirm = true))
    (hn : ∀ k, args.clusters = some k → 0 ≤ k) (hit : 1 ≤ args.iterations) (hk : 1 ≤ args.groupTopK) (hmin : 1 ≤ args.minDocs)
    (hfields : args.fields.Nodup)
    (hint : ReadsNumbers int) (v : Visit σ) (hw : FairWeb v.web) (hp : Draws v.web.pick) (fmt : Format σ)
    (hharm : ∀ y ∈ collected tw, ∀ u ∈ tw.usersLatest, u.user = y.user → Harmless x y u) :
    let docs := collected tw
    let indexed := Pipeline.indexTw t cfg s tw f
    let modelled := Pipeline.model luck args confirm indexed.1
    let shows := TwShows t tw
    (∃ c fl x, ValueIn modelled.1.data fl x c) →
      ∃ html, ShowsSearches (fun r => follow int (twittersphere t (fun d => String.ofList (Html.tweetHtml (TW.tweetView x d))) tw) modelled.1 { v with request := r }) shows docs (fun x => .int x.id) html v.web.rd modelled.1.data
      fmt (fun s => .markup s.toList)
      (fun y ns => ∃ u ∈ tw.usersLatest, u.user = y.user ∧ ns = tweetNodes x y u) := by
  intro docs indexed modelled shows hc
  obtain ⟨-, -, -, html, hrd, h⟩ := tweets_searched (int := int) t (fun d => String.ofList (Html.tweetHtml (TW.tweetView x d))) tw hr hver hne vocabulary hvoc hsize cfg hpos s hf hno f hu luck hscore hshuffle args confirm hm hn hit hk hmin hfields hint v hw hp
  refine ⟨html, searches_on_screen (h hc) fmt (fun s => .markup s.toList) _ (fun y hy => ?_)⟩
  obtain ⟨doc, d1, d2, d3⟩ := hrd y hy
  obtain ⟨d, u, e1, e2, e3, e4, e5, e6⟩ := tweet_doc hr ⟨y, (List.mem_filter.1 hy).1, rfl⟩
  rw [d1] at e1
  cases e1
  rw [d2] at e5
  refine ⟨_, ⟨u, e4, e5, rfl⟩, ?_⟩
  rw [d3, String.toList_ofList]
  have := tweet_read x doc u e6 (by rw [d2]; exact hharm y hy u e4 e5)
  rw [d2] at this
  exact this

/-- **C88, tweets**, with a model made before. -/
theorem tweets_later_searched_on_screen_partial (t : TW.TextOps) (x : TW.Display) (tw : TW.Db) (hr : TwReadable t tw)
    (hver : ∃ v, tw.version = some v ∧ 15 ≤ v) (hne : tw.direct ≠ [])
    (cfg : IndexCfg) (hpos : cfg.positions = true → ∀ y ∈ collected tw, NothingMissing tw y)
    (s : Schedule) (hf : Fair s) (hno : ∀ i, s.fault i = none) (f : File) (hu : Usable f)
    (hsize : ∀ c, (featuresIn f.data c).length ≤ 2 ^ 62)
    (hint : ReadsNumbers int) (v : Visit σ) (hw : FairWeb v.web) (hp : Draws v.web.pick) (fmt : Format σ)
    (hharm : ∀ y ∈ collected tw, ∀ u ∈ tw.usersLatest, u.user = y.user → Harmless x y u) :
    let docs := collected tw
    let indexed := Pipeline.indexTw t cfg s tw f
    let shows := TwShows t tw
    (∃ c fl x, ValueIn f.data fl x c) →
      ∃ html, ShowsSearches (fun r => follow int (twittersphere t (fun d => String.ofList (Html.tweetHtml (TW.tweetView x d))) tw) indexed.1 { v with request := r }) shows docs (fun x => .int x.id) html v.web.rd indexed.1.data
      fmt (fun s => .markup s.toList)
      (fun y ns => ∃ u ∈ tw.usersLatest, u.user = y.user ∧ ns = tweetNodes x y u) := by
  intro docs indexed shows hc
  obtain ⟨-, html, hrd, h⟩ := tweets_later_searched (int := int) t (fun d => String.ofList (Html.tweetHtml (TW.tweetView x d))) tw hr hver hne cfg hpos s hf hno f hu hsize hint v hw hp
  refine ⟨html, searches_on_screen (h hc) fmt (fun s => .markup s.toList) _ (fun y hy => ?_)⟩
  obtain ⟨doc, d1, d2, d3⟩ := hrd y hy
  obtain ⟨d, u, e1, e2, e3, e4, e5, e6⟩ := tweet_doc hr ⟨y, (List.mem_filter.1 hy).1, rfl⟩
  rw [d1] at e1
  cases e1
  rw [d2] at e5
  refine ⟨_, ⟨u, e4, e5, rfl⟩, ?_⟩
  rw [d3, String.toList_ofList]
  have := tweet_read x doc u e6 (by rw [d2]; exact hharm y hy u e4 e5)
  rw [d2] at this
  exact this

/-! ## Examples -/

/-- A box with one document. -/
theorem displays_one {α : Type} {belongs : α → Prop} {docs : List α} {item : α → List Node → Prop} {n : Nat} {rest read : List Node}
    (h : Displays belongs docs item n rest read) (d : α) (hm : d ∈ docs) (hb : belongs d) (hone : ∀ x ∈ docs, belongs x → x = d)
    (hcount : howMany belongs docs = 1) (hn : 0 < n) :
    ∃ ns before after, item d ns ∧ before ++ after = rest ∧ read = before ++ documentBox 1 [ns] ++ after := by
  obtain ⟨chosen, items, before, after, h1, h2, h3, h4, h5, h6⟩ := h
  rw [hcount, Nat.min_eq_right hn] at h3
  obtain ⟨x, rfl⟩ := List.length_eq_one_iff.1 h3
  obtain rfl := hone x (h2 x (by simp)).1 (h2 x (by simp)).2
  rw [List.forall₂_cons_left_iff] at h4
  obtain ⟨ns, rest', e1, e2, e3⟩ := h4
  rw [List.forall₂_nil_left_iff] at e2
  subst e2 e3
  rw [hcount] at h6
  exact ⟨ns, before, after, e1, h5, h6⟩

/-- Three lines are modelled; a search for `c` gives a page with the box "All 1 matching documents." and the line `a c`. -/
example (corpus : PlainText.Db × Except Err Unit) (hcorpus : Pipeline.create (· = ' ') 100 (demoLines.flatMap Line.render) none = corpus)
    (indexed : File × Except Err Unit) (hindexed : Pipeline.indexPlain letters ⟨2, 2, true⟩ demoSchedule corpus.1 File.empty = indexed)
    (modelled : File × Outcome) (hmodelled : Pipeline.model demoLuck { clusters := some 2, minDocs := 1 } false indexed.1 = modelled)
    (fmt : Format Rat) :
    ∃ p html, (follow readInt (plain letters corpus.1) modelled.1 (demoVisit (searchForm "0" none "text" "c")) 3).2 = .index p ∧
      indexHtml fmt .text "0" p = some html ∧
      ⟨"div", [("class", "cluster-header")], "All 1 matching documents."⟩ ∈ nodes html ∧ ⟨"li", [], "a c"⟩ ∈ nodes html := by
  have first := text_file_searched (int := readInt) (· = ' ') 100 demoLines demoLines_ok _ (.inl rfl) (by decide +kernel)
    none letters (by decide +kernel) ⟨2, 2, true⟩ demoSchedule demo_fair (fun _ => rfl) File.empty (.inl ⟨rfl, rfl, rfl⟩) demoLuck rfl
    (fun _ => .refl _) { clusters := some 2, minDocs := 1 } false (.inl rfl) (by intro k hk; cases hk; decide) (by decide) (by decide)
    (by decide) (by decide) readInt_reads (demoVisit (.get "/")) demoWeb_fair draws_first
  have main := text_file_searched_on_screen (int := readInt) (· = ' ') 100 demoLines demoLines_ok _ (.inl rfl) (by decide +kernel)
    none letters (by decide +kernel) ⟨2, 2, true⟩ demoSchedule demo_fair (fun _ => rfl) File.empty (.inl ⟨rfl, rfl, rfl⟩) demoLuck rfl
    (fun _ => .refl _) { clusters := some 2, minDocs := 1 } false (.inl rfl) (by intro k hk; cases hk; decide) (by decide) (by decide)
    (by decide) (by decide) readInt_reads (demoVisit (.get "/")) demoWeb_fair draws_first fmt
  dsimp only at first main
  rw [hcorpus, hindexed, hmodelled] at first main
  obtain ⟨-, -, -, hv, -⟩ := first
  have hcount : howMany (fun d : Nat × String => "text" = "text" ∧ ∃ t ∈ letters d.2, Val.text "c" = .text t)
      (numbered (documents (· = ' ') demoLines)) = 1 := by
    rw [howMany]
    exact Eq.trans (List.countP_congr (by intro d _; simp))
      (by decide +kernel : (numbered (documents (· = ' ') demoLines)).countP (fun d => "c" ∈ letters d.2) = 1)
  obtain ⟨c, hcc⟩ := (hv "text" (.text "c")).2 ⟨by rw [hcount], .inl rfl⟩
  obtain ⟨p, html, p1, -, p2, p3⟩ := (main ⟨c, _, _, hcc⟩).found "text" "c" ⟨(2, "a c"), by decide +kernel, rfl, "c", by decide +kernel, rfl⟩
  obtain ⟨ns, before, after, rfl, -, e⟩ := displays_one p3 (2, "a c") (by decide +kernel) ⟨rfl, "c", by decide +kernel, rfl⟩ (by
    rintro x hx ⟨-, t, ht, e⟩
    cases e
    exact (by decide +kernel : ∀ d ∈ numbered (documents (· = ' ') demoLines), "c" ∈ letters d.2 → d = (2, "a c")) x hx ht) hcount (by decide)
  refine ⟨p, html, p1, p2, ?_, ?_⟩ <;> rw [e]
  · exact List.mem_append_left _ (List.mem_append_right _ (by decide +kernel))
  · exact List.mem_append_left _ (List.mem_append_right _ (by decide +kernel))

/-- New lines under an older model: the same search gives the same box; a search for `c` on the page of the cluster 1 shows a box too. -/
example (corpus : PlainText.Db × Except Err Unit) (hcorpus : Pipeline.create (· = ' ') 100 (demoLines.flatMap Line.render) none = corpus)
    (indexed : File × Except Err Unit) (hindexed : Pipeline.indexPlain letters ⟨2, 2, true⟩ demoSchedule corpus.1 earlierFile = indexed)
    (fmt : Format Rat) :
    (∃ p html, (follow readInt (plain letters corpus.1) indexed.1 (demoVisit (searchForm "0" none "text" "c")) 3).2 = .index p ∧
      indexHtml fmt .text "0" p = some html ∧ ⟨"li", [], "a c"⟩ ∈ nodes html) ∧
    (∃ p html, (follow readInt (plain letters corpus.1) indexed.1 (demoVisit (searchForm "0" (some 1) "text" "c")) 3).2 = .cluster p ∧
      clusterHtml fmt .text "0" none p = some html ∧ ⟨"li", [], "a c"⟩ ∈ nodes html) := by
  have main := text_file_later_searched_on_screen (int := readInt) (· = ' ') 100 demoLines demoLines_ok _ (.inl rfl) (by decide +kernel)
    none letters ⟨2, 2, true⟩ demoSchedule demo_fair (fun _ => rfl) earlierFile earlierFile_usable earlierFile_size
    readInt_reads (demoVisit (.get "/")) demoWeb_fair draws_first fmt
  have later := text_file_later (int := readInt) (· = ' ') 100 demoLines demoLines_ok _ (.inl rfl) (by decide +kernel)
    none earlierFile earlierFile_usable earlierFile_size letters ⟨2, 2, true⟩ demoSchedule demo_fair (fun _ => rfl)
    readInt_reads (demoVisit (.get "/")) demoWeb_fair draws_first
  dsimp only at main later
  rw [hcorpus, hindexed] at main later
  obtain ⟨-, -, -, -, hvalues, -⟩ := later
  have hva := (hvalues _ _ _).2 earlierFile_values.1
  have H := main ⟨1, _, _, earlierFile_values.1⟩
  have hnodup : (numbered (documents (· = ' ') demoLines)).Nodup := by decide +kernel
  constructor
  · obtain ⟨p, html, p1, -, p2, p3⟩ := H.found "text" "c" ⟨(2, "a c"), by decide +kernel, rfl, "c", by decide +kernel, rfl⟩
    obtain ⟨ns, rfl, h⟩ := displays_all p3 ((List.countP_le_length ..).trans (by decide +kernel)) hnodup (2, "a c") (by decide +kernel)
      ⟨rfl, "c", by decide +kernel, rfl⟩
    exact ⟨p, html, p1, p2, h _ (by simp)⟩
  · obtain ⟨w1, w2⟩ := H.within 1 "text" "c" (by decide) ⟨_, _, hva⟩
    rcases w2 with h | ⟨p, p1, -, p2⟩
    · exact absurd h (w1 ⟨(2, "a c"), by decide +kernel, rfl, "c", by decide +kernel, rfl⟩)
    · obtain ⟨html, q1, q2, -⟩ := p2 none
      have hb : InCluster (fun (d : Nat × String) (field : String) (x : Val) => field = "text" ∧ ∃ t ∈ letters d.2, x = .text t)
          indexed.1.data (2, "a c") 1 := ⟨"text", .text "a", hva, rfl, "a", by decide +kernel, rfl⟩
      have hs : "text" = "text" ∧ ∃ t ∈ letters "a c", Val.text "c" = .text t := ⟨rfl, "c", by decide +kernel, rfl⟩
      obtain ⟨ns, rfl, h⟩ := displays_all (q2 ⟨(2, "a c"), by decide +kernel, hs, hb⟩) ((List.countP_le_length ..).trans (by decide +kernel))
        hnodup (2, "a c") (by decide +kernel) ⟨hs, hb⟩
      exact ⟨p, html, p1, q1, h _ (by simp)⟩

/-- The two sites under an older model: a search for the site "two" gives a page that can be made and has the title of its post. -/
example (corpus : SX.Db × Except Err Unit) (hcorpus : Pipeline.addSites twoSites {} = corpus)
    (indexed : File × Except Err Unit) (hindexed : Pipeline.indexSx fieldOps List.reverse ⟨2, 2, true⟩ demoSchedule corpus.1 earlierFile = indexed)
    (fmt : Format Rat) :
    ∃ p html, (follow readInt (stackExchange fieldOps List.reverse List.reverse corpus.1) indexed.1
        (demoVisit (searchForm "0" none "Site" "two")) 3).2 = .index p ∧ indexHtml fmt (fun s => .markup s.toList) "0" p = some html ∧
      ∃ tags, ∀ x ∈ inItem (postNodes otherDump "two" ((considered otherDump)[0]'(by decide +kernel)) tags), x ∈ nodes html := by
  have main := sites_later_searched_on_screen_partial (int := readInt) fieldOps rfl List.reverse List.reverse_perm twoSites
    twoSites_readable (by decide +kernel) List.reverse List.reverse_perm ⟨2, 2, true⟩ demoSchedule demo_fair (fun _ => rfl) earlierFile
    earlierFile_usable earlierFile_size readInt_reads (demoVisit (.get "/")) demoWeb_fair draws_first fmt twoSites_unmarking
  dsimp only at main
  rw [hcorpus, hindexed] at main
  obtain ⟨render, H⟩ := main ⟨1, _, _, earlierFile_values.1⟩
  have hmem : ((⟨otherDump, "two", 2, (considered otherDump)[0]'(by decide +kernel)⟩, 2) : SitePost × Nat) ∈ (allPosts twoSites).zipIdx := by
    rw [List.mk_mem_zipIdx_iff_getElem?]
    rfl
  obtain ⟨p, html, p1, -, p2, p3⟩ := H.found "Site" "two" ⟨_, hmem, "two", rfl, .site⟩
  obtain ⟨ns, ⟨tags, -, rfl⟩, h⟩ := displays_all p3 ((List.countP_le_length ..).trans (by decide +kernel)) (by
    have : ((allPosts twoSites).zipIdx.map (·.2)).Nodup := by rw [List.zipIdx_map_snd]; exact List.nodup_range'
    exact List.Nodup.of_map _ this) _ hmem ⟨"two", rfl, .site⟩
  exact ⟨p, html, p1, p2, tags, h⟩

/-- Two tweets under an older model: a search for the author "ann" gives a page that shows her tweet. -/
example (indexed : File × Except Err Unit) (hindexed : Pipeline.indexTw twOps ⟨2, 2, true⟩ demoSchedule linkedTweets earlierFile = indexed)
    (fmt : Format Rat) :
    ∃ p html, (follow readInt (twittersphere twOps (fun d => String.ofList (Html.tweetHtml (TW.tweetView demoDisplay d))) linkedTweets) indexed.1
        (demoVisit (searchForm "0" none "by" "ann")) 3).2 = .index p ∧ indexHtml fmt (fun s => .markup s.toList) "0" p = some html ∧
      ∃ u ∈ linkedTweets.usersLatest, ∀ x ∈ tweetNodes demoDisplay ⟨1, 10, "r", "2020", "hello", some 1, none, some 2, some 3⟩ u, x ∈ nodes html := by
  have main := tweets_later_searched_on_screen_partial (int := readInt) twOps demoDisplay linkedTweets
    linkedTweets_indexable.1 linkedTweets_indexable.2.1 linkedTweets_indexable.2.2.1 ⟨2, 2, true⟩ (fun _ => linkedTweets_indexable.2.2.2.1)
    demoSchedule demo_fair (fun _ => rfl) earlierFile earlierFile_usable earlierFile_size
    readInt_reads (demoVisit (.get "/")) demoWeb_fair draws_first fmt
    (fun y hy u hu _ => linkedTweets_harmless y (List.mem_filter.1 hy).1 u hu)
  dsimp only at main
  rw [hindexed] at main
  obtain ⟨render, H⟩ := main ⟨1, _, _, earlierFile_values.1⟩
  have hmem : (⟨1, 10, "r", "2020", "hello", some 1, none, some 2, some 3⟩ : TW.Tweet) ∈ collected linkedTweets := by decide +kernel
  have hby : TwShows twOps linkedTweets ⟨1, 10, "r", "2020", "hello", some 1, none, some 2, some 3⟩ "by" (.text "ann") :=
    .author ⟨10, "r", some "ann"⟩ "ann" (by decide) rfl rfl
  obtain ⟨p, html, p1, -, p2, p3⟩ := H.found "by" "ann" ⟨_, hmem, hby⟩
  obtain ⟨ns, ⟨u, hu, -, rfl⟩, h⟩ := displays_all p3 ((List.countP_le_length ..).trans (by decide +kernel)) (by decide +kernel) _ hmem hby
  exact ⟨p, html, p1, p2, u, hu, h⟩

/-- The same of a new model of the two sites. -/
example (corpus : SX.Db × Except Err Unit) (hcorpus : Pipeline.addSites twoSites {} = corpus)
    (indexed : File × Except Err Unit) (hindexed : Pipeline.indexSx fieldOps List.reverse ⟨2, 2, true⟩ demoSchedule corpus.1 File.empty = indexed)
    (modelled : File × Outcome) (hmodelled : Pipeline.model demoLuck { clusters := some 2, minDocs := 1 } false indexed.1 = modelled)
    (fmt : Format Rat) (hmodel : ∃ c fl x, ValueIn modelled.1.data fl x c) :
    ∃ p html, (follow readInt (stackExchange fieldOps List.reverse List.reverse corpus.1) modelled.1
        (demoVisit (searchForm "0" none "Site" "two")) 3).2 = .index p ∧ indexHtml fmt (fun s => .markup s.toList) "0" p = some html := by
  have main := sites_searched_on_screen_partial (int := readInt) fieldOps rfl List.reverse List.reverse_perm twoSites
    twoSites_readable (by decide +kernel) List.reverse List.reverse_perm twoVocabulary twoVocabulary_covers (by decide +kernel) ⟨2, 2, true⟩
    demoSchedule demo_fair (fun _ => rfl) File.empty (.inl ⟨rfl, rfl, rfl⟩) demoLuck rfl (fun _ => .refl _)
    { clusters := some 2, minDocs := 1 } false (.inl rfl) (by intro k hk; cases hk; decide) (by decide) (by decide) (by decide) (by decide)
    readInt_reads (demoVisit (.get "/")) demoWeb_fair draws_first fmt twoSites_unmarking
  dsimp only at main
  rw [hcorpus, hindexed, hmodelled] at main
  obtain ⟨render, H⟩ := main hmodel
  have hmem : ((⟨otherDump, "two", 2, (considered otherDump)[0]'(by decide +kernel)⟩, 2) : SitePost × Nat) ∈ (allPosts twoSites).zipIdx := by
    rw [List.mk_mem_zipIdx_iff_getElem?]
    rfl
  obtain ⟨p, html, p1, -, p2, -⟩ := H.found "Site" "two" ⟨_, hmem, "two", rfl, .site⟩
  exact ⟨p, html, p1, p2⟩

/-- The same of a new model of the two tweets. -/
example (indexed : File × Except Err Unit) (hindexed : Pipeline.indexTw twOps ⟨2, 2, true⟩ demoSchedule linkedTweets File.empty = indexed)
    (modelled : File × Outcome) (hmodelled : Pipeline.model demoLuck { clusters := some 2, minDocs := 1 } false indexed.1 = modelled)
    (fmt : Format Rat) (hmodel : ∃ c fl x, ValueIn modelled.1.data fl x c) :
    ∃ p html, (follow readInt (twittersphere twOps (fun d => String.ofList (Html.tweetHtml (TW.tweetView demoDisplay d))) linkedTweets) modelled.1
        (demoVisit (.get "/index/0")) 2).2 = .index p ∧ indexHtml fmt (fun s => .markup s.toList) "0" p = some html := by
  obtain ⟨hr, hver, hne, hpos, -, ⟨voc, hsize, hvoc⟩, -⟩ := linkedTweets_indexable
  have main := tweets_searched_on_screen_partial (int := readInt) twOps demoDisplay linkedTweets hr hver hne voc hvoc hsize ⟨2, 2, true⟩
    (fun _ => hpos) demoSchedule demo_fair (fun _ => rfl) File.empty (.inl ⟨rfl, rfl, rfl⟩) demoLuck rfl (fun _ => .refl _)
    { clusters := some 2, minDocs := 1 } false (.inl rfl) (by intro k hk; cases hk; decide) (by decide) (by decide) (by decide) (by decide)
    readInt_reads (demoVisit (.get "/")) demoWeb_fair draws_first fmt
    (fun y hy u hu _ => linkedTweets_harmless y (List.mem_filter.1 hy).1 u hu)
  dsimp only at main
  rw [hindexed, hmodelled] at main
  obtain ⟨render, H⟩ := main hmodel
  obtain ⟨p, html, p1, -, p2, -⟩ := H.overview
  exact ⟨p, html, p1, p2⟩

end Hyperreal.Props
