import Verif.Spec.Screen
import Verif.Props.PipelineSites
import Verif.Props.TwPage
import Verif.Props.Pages

/-! # C85: from the corpus to the screen -/

namespace Hyperreal.Props
open Atomic Spec Spec.Page Cli Migrate Web Serve Pages

variable {int : String → Option Int} {σ : Type} [LinearOrder σ]

theorem documentBox_whole {β : Type} (asDoc : String → Html.Doc) (l : List β) (a : β → Nat × Val × String) (total : Nat) (hl : l ≠ [])
    (items : β → List Node) (hi : ∀ r ∈ l, Whole (Html.item (asDoc (a r).2.2)) (items r)) :
    ∃ x, resultBox asDoc "document" total (.documents (l.map a)) = some x ∧ Whole x (documentBox total (l.map items)) := by
  have h0 : resultCount (.documents (l.map a)) ≠ 0 := by
    show (l.map a).length ≠ 0
    simpa using hl
  unfold resultBox
  rw [if_neg h0]
  have hlist : resultList asDoc "document" (.documents (l.map a)) = some (Html.docList ((l.map a).map (fun r => asDoc r.2.2))) := by
    unfold resultList
    simp
  rw [hlist]
  refine ⟨_, rfl, ?_⟩
  have hc : resultCount (.documents (l.map a)) = (l.map items).length := by rw [List.length_map]; exact List.length_map ..
  rw [hc]
  have w1 : Whole (fill (fun _ => toString total) ["<li>", "<div class=\"cluster-header\">",
      if (l.map items).length < total then "Sample of {{ total_docs }} documents" else "All {{ total_docs }} matching documents.", "</div>"])
      [⟨"li", [], ""⟩, ⟨"div", [("class", "cluster-header")], if (l.map items).length < total then "Sample of " ++ toString total ++ " documents" else
        "All " ++ toString total ++ " matching documents."⟩, ⟨"/div", [], ""⟩] := by
    have := lines_whole' (fun _ => toString total) ["<li>", "<div class=\"cluster-header\">",
      if (l.map items).length < total then "Sample of {{ total_docs }} documents" else "All {{ total_docs }} matching documents.", "</div>"]
      (resultTags (decide ((l.map items).length < total))) (by
        by_cases hc : (l.map items).length < total
        · simp only [hc, if_true, decide_true]; decide +kernel
        · simp only [hc, if_false, decide_false]; decide +kernel)
    unfold resultTags at this
    rw [List.map_cons, List.map_cons, List.map_cons, List.map_nil] at this
    by_cases hc : (l.map items).length < total
    · simp only [hc, if_true, decide_true, Pattern.node, List.map_nil, List.map_cons, textOf_pieces _ "" [] (by decide +kernel),
        textOf_pieces _ "cluster-header" [.inl "cluster-header"] (by decide +kernel),
        textOf_pieces _ "Sample of {{ total_docs }} documents" [.inl "Sample of ", .inr "total_docs", .inl " documents"] (by decide +kernel),
        List.foldr_cons, List.foldr_nil, String.append_empty, piece, ← String.append_assoc] at this ⊢
      exact this
    · simp only [hc, if_false, decide_false, Bool.false_eq_true, Pattern.node, List.map_nil, List.map_cons, textOf_pieces _ "" [] (by decide +kernel),
        textOf_pieces _ "cluster-header" [.inl "cluster-header"] (by decide +kernel),
        textOf_pieces _ "All {{ total_docs }} matching documents." [.inl "All ", .inr "total_docs", .inl " matching documents."] (by decide +kernel),
        List.foldr_cons, List.foldr_nil, String.append_empty, piece, ← String.append_assoc] at this ⊢
      exact this
  have w2 : Whole (Html.docList ((l.map a).map (fun r => asDoc r.2.2))) (⟨"ul", [("class", "doc-list")], ""⟩ :: (l.map items).flatten ++ [⟨"/ul", [], ""⟩]) := by
    unfold Html.docList
    rw [lit_eq, lit_eq, List.map_map, List.flatMap_map, ← List.flatMap_def]
    exact Whole.append (es := _ :: _) (Whole.append (es := [_]) (plain_whole (fun _ => "") ["<ul class=\"doc-list\">"] _ (by decide +kernel) (by decide +kernel))
      (whole_flatMap _ _ _ fun r hr => hi r hr)) (plain_whole (fun _ => "") ["</ul>"] _ (by decide +kernel) (by decide +kernel))
  have w3 : Whole (fill (fun _ => "") ["</li>"]) [⟨"/li", [], ""⟩] := plain_whole _ _ _ (by decide +kernel) (by decide +kernel)
  have := (w1.append w2).append w3
  simpa [documentBox] using this

theorem list_witnesses {α β : Type} {Q : α → β → Prop} (l : List α) (h : ∀ a ∈ l, ∃ b, Q a b) :
    ∃ m : List (α × β), m.map (·.1) = l ∧ ∀ x ∈ m, Q x.1 x.2 := by
  induction l with
  | nil => exact ⟨[], rfl, by simp⟩
  | cons a l ih =>
    obtain ⟨m, h1, h2⟩ := ih (fun x hx => h x (by simp [hx]))
    obtain ⟨b, hb⟩ := h a (by simp)
    exact ⟨(a, b) :: m, by rw [List.map_cons, h1], by rintro x (_ | ⟨_, hx⟩); exacts [hb, h2 x hx]⟩

theorem page_split (title : String) (nav e box f g h : List Node) : ∃ before after,
    pageTags title nav (e ++ box ++ f ++ g ++ h) = before ++ box ++ after ∧ before ++ after = pageTags title nav (e ++ [] ++ f ++ g ++ h) :=
  ⟨⟨"", [], ""⟩ :: (tags (fun _ => title) headTags ++ tags (fun _ => "") bodyTags ++ nav ++ tags (fun _ => "") mainTags ++ e),
    f ++ g ++ h ++ tags (fun _ => "") footTags, by simp [pageTags], by simp [pageTags]⟩

/-- The page of a cluster with documents, as it is read. -/
theorem screen_of_parts {α : Type} {belongs : α → Prop} {docs : List α} {key : α → Val} {render : α → String}
    {c : Int} {n : Nat} {p : ClusterPage σ} (h1 : p.cluster = c) (h3 : p.type = "document")
    (h4 : p.total = howMany belongs docs)
    (hdocs : ∃ rs, p.results = .documents rs ∧ rs.length = min n p.total ∧ (rs.map (·.2.1)).Nodup ∧
      ∀ r ∈ rs, ∃ d ∈ docs, belongs d ∧ r.2.1 = key d ∧ r.2.2 = render d)
    (hn : 0 < n) (ht : 0 < p.total)
    (fmt : Format σ) (asDoc : String → Html.Doc) (i : String) (f : Option Nat) (item : α → List Node → Prop)
    (hitem : ∀ d ∈ docs, ∃ ns, item d ns ∧ Whole (Html.item (asDoc (render d))) ns) :
    ∃ html, clusterHtml fmt asDoc i f p = some html ∧
      Displays belongs docs item n
        (clusterPageTags fmt asDoc i f { p with results := .nothing }) (nodes html) := by
  obtain ⟨pc, pprev, pnext, pfeat, pres, ptype, ptotal, ppin, pfields⟩ := p
  obtain ⟨rs, h5, h6, h7, h8⟩ := hdocs
  simp only at h1 h3 h4 h5 h6 h7 h8 ht
  subst h1 h3 h5
  obtain ⟨m, e1, e2⟩ := list_witnesses (Q := fun (r : Nat × Val × String) (y : α × List Node) => (y.1 ∈ docs ∧ belongs y.1) ∧ r.2.1 = key y.1 ∧ item y.1 y.2 ∧ Whole (Html.item (asDoc r.2.2)) y.2) rs (by
    intro r hr
    obtain ⟨d, d1, d2, d3, d4⟩ := h8 r hr
    obtain ⟨ns, n1, n2⟩ := hitem d d1
    exact ⟨(d, ns), ⟨d1, d2⟩, d3, n1, by rw [d4]; exact n2⟩)
  subst e1
  have hm : m ≠ [] := by
    rintro rfl
    simp only [List.map_nil, List.length_nil] at h6
    omega
  obtain ⟨x, hx, hw⟩ := documentBox_whole asDoc m (·.1) ptotal hm (fun y => y.2.2) (fun y hy => (e2 y hy).2.2.2)
  unfold clusterHtml
  dsimp only
  rw [hx]
  refine ⟨_, rfl, m.map (fun y => y.2.1), m.map (fun y => y.2.2), ?_⟩
  rw [← h4]
  unfold clusterPageTags
  rw [pageEntries_eq]
  set es := shownEntries fmt pfeat
  set env : String → String := fun n => if n = "index_id" then i else if n = "cluster_id" then toString pc
    else if n = "prev_cluster_id" then toString pprev else toString pnext with henv
  have hpage := frame_whole ("Cluster " ++ toString pc) _ _ _ _ (clusterNavLines_whole env)
    (((((((((contextSearch_whole i pfields (some pc)).append (clusterMenuLines_whole env (decide (pprev ≠ 0 ∨ pnext ≠ 0)))).append (editLines_whole env)).append
      (clusterForms_whole i pc pnext ppin es)).append
      (plain_whole env ["</details>", "<ul class=\"cluster-list\">"] [⟨"/details", [], ""⟩, ⟨"ul", [("class", "cluster-list")], ""⟩]
        (by decide +kernel) (by decide +kernel))).append hw).append
      (plain_whole env ["<li>"] [⟨"li", [], ""⟩] (by decide +kernel) (by decide +kernel))).append
      (clusterBox_whole i pc es f)).append (plain_whole env ["</li>", "</ul>"] [⟨"/li", [], ""⟩, ⟨"/ul", [], ""⟩] (by decide +kernel) (by decide +kernel)))
  obtain ⟨before, after, b1, b2⟩ := page_split ("Cluster " ++ toString pc) (tags env clusterNavTags)
    (searchFormTags i pfields (some pc) ++ tags env (clusterMenuTags (decide (pprev ≠ 0 ∨ pnext ≠ 0))) ++ tags env editTags ++
      clusterFormTags i pc pnext ppin es ++ [⟨"/details", [], ""⟩, ⟨"ul", [("class", "cluster-list")], ""⟩])
    (documentBox ptotal (m.map (fun y => y.2.2))) [⟨"li", [], ""⟩] (clusterBoxTags i pc es f) [⟨"/li", [], ""⟩, ⟨"/ul", [], ""⟩]
  refine ⟨before, after, ?_, ?_, ?_, ?_, b2, hpage.trans b1⟩
  · rw [List.map_map] at h7
    have : (m.map (fun y => key y.2.1)).Nodup := by
      rw [show m.map (fun y => key y.2.1) = m.map ((fun x => x.2.1) ∘ fun x => x.1) from
        List.map_congr_left fun y hy => (e2 y hy).2.1.symm]
      exact h7
    rw [show m.map (fun y => key y.2.1) = (m.map (fun y => y.2.1)).map key from (List.map_map ..).symm] at this
    exact List.Nodup.of_map _ this
  · intro d hd
    obtain ⟨y, hy, rfl⟩ := List.mem_map.1 hd
    exact (e2 y hy).1
  · rw [List.length_map]
    simpa using h6
  · rw [List.forall₂_map_left_iff, List.forall₂_map_right_iff, List.forall₂_same]
    exact fun y hy => (e2 y hy).2.2.1

theorem screen_of_page {α : Type} {shows : α → String → Val → Prop} {docs : List α} {key : α → Val} {render : α → String} {db : DB}
    {c : Int} {n : Nat} {p : ClusterPage σ} (h : IsClusterPage shows docs key render db c n p) (hn : 0 < n) (ht : 0 < p.total)
    (fmt : Format σ) (asDoc : String → Html.Doc) (i : String) (f : Option Nat) (item : α → List Node → Prop)
    (hitem : ∀ d ∈ docs, ∃ ns, item d ns ∧ Whole (Html.item (asDoc (render d))) ns) :
    ∃ html, clusterHtml fmt asDoc i f p = some html ∧
      Displays (fun d => ∃ fl v, shows d fl v ∧ ValueIn db fl v c) docs item n
        (clusterPageTags fmt asDoc i f { p with results := .nothing }) (nodes html) :=
  screen_of_parts h.cluster h.kind h.total h.documents hn ht fmt asDoc i f item hitem

theorem total_pos {α : Type} {shows : α → String → Val → Prop} {docs : List α} {key : α → Val} {render : α → String} {db : DB}
    {c : Int} {n : Nat} {p : ClusterPage σ} (hv : ∀ fl x, ValueIn db fl x c → 1 ≤ howMany (fun d => shows d fl x) docs)
    (hc : ∃ fl x, ValueIn db fl x c) (h : IsClusterPage shows docs key render db c n p) : 0 < p.total := by
  classical
  obtain ⟨fl, x, hx⟩ := hc
  have := hv fl x hx
  rw [howMany] at this
  obtain ⟨d, d1, d2⟩ := List.countP_pos_iff.1 this
  rw [h.total, howMany, List.countP_pos_iff]
  exact ⟨d, d1, by simpa using ⟨fl, x, by simpa using d2, hx⟩⟩

/-- **C85, text.** From a text file to the screen: after `create`, `index` and `model`, the page of every cluster that the server sends
can be made, and what a browser reads is the page (C75) with one box that says how many lines have a token of the cluster and lists
30 of them, or all if there are fewer: each of them once, as the very text of the line, whatever characters it contains. -/
theorem text_file_on_screen (space : Char → Bool) (limit : Nat) (ls : List Line) (hls : ∀ l ∈ ls, l.Ok limit)
    (file : List Char) (hfile : file = ls.flatMap Line.render ∨ file ++ ['\n'] = ls.flatMap Line.render)
    (hne : documents space ls ≠ []) (old : PlainText.Db) (f : File) (hu : Usable f)
    (tokens : String → List String) (hsize : ((documents space ls).flatMap tokens).length ≤ 2 ^ 62)
    (cfg : IndexCfg) (s : Schedule) (hf : Fair s) (hno : ∀ i, s.fault i = none)
    (luck : Luck Rat) (hscore : luck.score = exactScorer luck.chance) (hshuffle : ∀ l, (luck.shuffle l).Perm l)
    (args : ModelArgs) (confirm : Bool) (hm : f.data.clusters = [] ∨ (args.restart = true ∧ confirm = true))
    (hn : ∀ k, args.clusters = some k → 0 ≤ k) (hi : 1 ≤ args.iterations) (hk : 1 ≤ args.groupTopK) (hmin : 1 ≤ args.minDocs)
    (hfields : args.fields.Nodup)
    (hint : ReadsNumbers int) (v : Visit σ) (hw : FairWeb v.web) (hp : Draws v.web.pick) (fmt : Format σ) :
    let docs := numbered (documents space ls)
    let corpus := Pipeline.create space limit file old
    let indexed := Pipeline.indexPlain tokens cfg s corpus.1 f
    let modelled := Pipeline.model luck args confirm indexed.1
    let get := fun url => follow int (plain tokens corpus.1) modelled.1 { v with request := .get url }
    let shows := fun (d : Nat × String) (field : String) (x : Val) => field = "text" ∧ ∃ t ∈ tokens d.2, x = .text t
    ∀ c, (∃ fl x, ValueIn modelled.1.data fl x c) → ∃ p html, (get ("/index/0/cluster/" ++ toString c) 1).2 = .cluster p ∧
      clusterHtml fmt .text "0" none p = some html ∧ IsClusterPage shows docs (fun d => .int d.1) (·.2) modelled.1.data c 30 p ∧
      Displays (fun d => ∃ fl x, shows d fl x ∧ ValueIn modelled.1.data fl x c) docs
        (fun d ns => ns = [⟨"li", [], d.2⟩, ⟨"/li", [], ""⟩]) 30
        (clusterPageTags fmt .text "0" none { p with results := .nothing }) (nodes html) := by
  intro docs corpus indexed modelled get shows c hc
  obtain ⟨-, -, -, -, -, h1, -, -, h2⟩ := text_file_served (int := int) space limit ls hls file hfile hne old f hu tokens hsize cfg s hf hno luck
    hscore hshuffle args confirm hm hn hi hk hmin hfields hint v hw hp
  obtain ⟨p, p1, p2⟩ := h2 c hc
  obtain ⟨html, q1, q2⟩ := screen_of_page p2 (by decide) (total_pos (fun fl x h => hmin.trans ((h1 fl x).1 ⟨c, h⟩).1) hc p2) fmt .text "0" none
    (fun d ns => ns = [⟨"li", [], d.2⟩, ⟨"/li", [], ""⟩])
    (fun d _ => ⟨_, rfl, item_whole (.text d.2) (fun s hs => by cases hs)⟩)
  exact ⟨p, html, p1, q1, p2, q2⟩

/-- **C85, Stack Exchange.** From the dumps of any number of sites to the screen: the page of every cluster lists posts that have a value of
the cluster, and a browser reads of each exactly what the dump of its own site says about it (`postNodes`, C63), if no post has
a name, license, tag or address with markup and no body leaves a tag open. -/
theorem sites_on_screen_partial (t : SX.TextOps) (h0 : t.tokens "" = []) (scan : List SX.Post → List SX.Post)
    (hscan : ∀ l, (scan l).Perm l) (ds : List (SX.Dump × String)) (hds : SitesReadable t ds) (hne : allPosts ds ≠ [])
    (vocabulary : List (String × String))
    (hvoc : ∀ r ∈ allPosts ds, ∀ fl w, SxShows t r.doc fl w → (fl, w) ∈ vocabulary) (hsize : vocabulary.length ≤ 2 ^ 62)
    (cfg : IndexCfg) (s : Schedule) (hf : Fair s) (hno : ∀ i, s.fault i = none) (f : File) (hu : Usable f)
    (luck : Luck Rat) (hscore : luck.score = exactScorer luck.chance) (hshuffle : ∀ l, (luck.shuffle l).Perm l)
    (args : ModelArgs) (confirm : Bool) (hm : f.data.clusters = [] ∨ (args.restart = true ∧ confirm = true))
    (hn : ∀ k, args.clusters = some k → 0 ≤ k) (hit : 1 ≤ args.iterations) (hk : 1 ≤ args.groupTopK) (hmin : 1 ≤ args.minDocs)
    (hfields : args.fields.Nodup)
    (order : List String → List String) (ho : ∀ l, (order l).Perm l)
    (hint : ReadsNumbers int) (v : Visit σ) (hw : FairWeb v.web) (hp : Draws v.web.pick) (fmt : Format σ)
    (hmark : ∀ r ∈ allPosts ds, Unmarking r.dump r.url r.row) :
    let docs := (allPosts ds).zipIdx
    let corpus := Pipeline.addSites ds {}
    let indexed := Pipeline.indexSx t scan cfg s corpus.1 f
    let modelled := Pipeline.model luck args confirm indexed.1
    let get := fun url' => follow int (stackExchange t scan order corpus.1) modelled.1 { v with request := .get url' }
    let shows := fun (x : SitePost × Nat) (field : String) (y : Val) => ∃ w, y = .text w ∧ SxShows t x.1.doc field w
    ∀ c, (∃ fl x, ValueIn modelled.1.data fl x c) → ∃ p html, (get ("/index/0/cluster/" ++ toString c) 1).2 = .cluster p ∧
      clusterHtml fmt (fun s => .markup s.toList) "0" none p = some html ∧
      Displays (fun d => ∃ fl x, shows d fl x ∧ ValueIn modelled.1.data fl x c) docs
        (fun x ns => ∃ tags, tags.Perm (tagsIn x.1.dump (x.1.row.parent.or x.1.row.id)) ∧
          ns = inItem (postNodes x.1.dump x.1.url x.1.row tags)) 30
        (clusterPageTags fmt (fun s => .markup s.toList) "0" none { p with results := .nothing }) (nodes html) := by
  intro docs corpus indexed modelled get shows c hc
  obtain ⟨-, -, -, -, -, h1, -, -, render, hr, h2⟩ := sites_served (int := int) t h0 scan hscan ds hds hne vocabulary hvoc hsize cfg s hf hno f hu luck
    hscore hshuffle args confirm hm hn hit hk hmin hfields order ho hint v hw hp
  obtain ⟨p, p1, p2⟩ := h2 c hc
  obtain ⟨html, q1, q2⟩ := screen_of_page p2 (by decide) (total_pos (fun fl x h => hmin.trans ((h1 fl x).1 ⟨c, h⟩).1) hc p2) fmt
    (fun s => .markup s.toList) "0" none
    (fun x ns => ∃ tags, tags.Perm (tagsIn x.1.dump (x.1.row.parent.or x.1.row.id)) ∧ ns = inItem (postNodes x.1.dump x.1.url x.1.row tags))
    (fun x hx => by
      obtain ⟨m1, m2⟩ := (hr x hx).2 (hmark x.1 (List.fst_mem_of_mem_zipIdx hx))
      refine ⟨_, ⟨_, ho _, rfl⟩, ?_⟩
      rw [← m2]
      exact item_whole (.markup (render x).toList) (fun s hs => by cases hs; exact m1))
  exact ⟨p, html, p1, q1, q2⟩

/-- **C85, tweets.** From a collection of tweets to the screen: the page of every cluster lists tweets that have a value of the
cluster, and a browser reads of each its own data and the present profile of its author (`tweetNodes`, C84), if no tweet or
profile has a text that ends a tag or attribute. -/
theorem tweets_on_screen_partial (t : TW.TextOps) (x : TW.Display) (tw : TW.Db) (hr : TwReadable t tw)
    (hver : ∃ v, tw.version = some v ∧ 15 ≤ v) (hne : tw.direct ≠ []) (vocabulary : List (String × Val))
    (hvoc : ∀ x ∈ collected tw, ∀ fl v, TwShows t tw x fl v → (fl, v) ∈ vocabulary) (hsize : vocabulary.length ≤ 2 ^ 62)
    (cfg : IndexCfg) (hpos : cfg.positions = true → ∀ x ∈ collected tw, NothingMissing tw x)
    (s : Schedule) (hf : Fair s) (hno : ∀ i, s.fault i = none) (f : File) (hu : Usable f)
    (luck : Luck Rat) (hscore : luck.score = exactScorer luck.chance) (hshuffle : ∀ l, (luck.shuffle l).Perm l)
    (args : ModelArgs) (confirm : Bool) (hm : f.data.clusters = [] ∨ (args.restart = true ∧ confirm = true))
    (hn : ∀ k, args.clusters = some k → 0 ≤ k) (hit : 1 ≤ args.iterations) (hk : 1 ≤ args.groupTopK) (hmin : 1 ≤ args.minDocs)
    (hfields : args.fields.Nodup)
    (hint : ReadsNumbers int) (v : Visit σ) (hw : FairWeb v.web) (hp : Draws v.web.pick) (fmt : Format σ)
    (hharm : ∀ y ∈ collected tw, ∀ u ∈ tw.usersLatest, u.user = y.user → Harmless x y u) :
    let docs := collected tw
    let indexed := Pipeline.indexTw t cfg s tw f
    let modelled := Pipeline.model luck args confirm indexed.1
    let get := fun url' => follow int (twittersphere t (fun d => String.ofList (Html.tweetHtml (TW.tweetView x d))) tw) modelled.1
      { v with request := .get url' }
    ∀ c, (∃ fl x, ValueIn modelled.1.data fl x c) → ∃ p html, (get ("/index/0/cluster/" ++ toString c) 1).2 = .cluster p ∧
      clusterHtml fmt (fun s => .markup s.toList) "0" none p = some html ∧
      Displays (fun d => ∃ fl x, TwShows t tw d fl x ∧ ValueIn modelled.1.data fl x c) docs
        (fun y ns => ∃ u ∈ tw.usersLatest, u.user = y.user ∧ ns = tweetNodes x y u) 30
        (clusterPageTags fmt (fun s => .markup s.toList) "0" none { p with results := .nothing }) (nodes html) := by
  intro docs indexed modelled get c hc
  obtain ⟨-, -, -, -, h1, -, -, render, hrd, h2⟩ := tweets_served (int := int) t (fun d => String.ofList (Html.tweetHtml (TW.tweetView x d))) tw hr hver hne
    vocabulary hvoc hsize cfg hpos s hf hno f hu luck hscore hshuffle args confirm hm hn hit hk hmin hfields hint v hw hp
  obtain ⟨p, p1, p2⟩ := h2 c hc
  obtain ⟨html, q1, q2⟩ := screen_of_page p2 (by decide) (total_pos (fun fl x h => hmin.trans ((h1 fl x).1 ⟨c, h⟩).1) hc p2) fmt
    (fun s => .markup s.toList) "0" none (fun y ns => ∃ u ∈ tw.usersLatest, u.user = y.user ∧ ns = tweetNodes x y u)
    (fun y hy => by
      obtain ⟨doc, d1, d2, d3⟩ := hrd y hy
      obtain ⟨d, u, e1, e2, e3, e4, e5, e6⟩ := tweet_doc hr ⟨y, (List.mem_filter.1 hy).1, rfl⟩
      rw [d1] at e1
      cases e1
      rw [d2] at e5
      refine ⟨_, ⟨u, e4, e5, rfl⟩, ?_⟩
      rw [d3, String.toList_ofList]
      have := tweet_read x doc u e6 (by rw [d2]; exact hharm y hy u e4 e5)
      rw [d2] at this
      exact this)
  exact ⟨p, html, p1, q1, q2⟩

/-! ## Examples -/

theorem otherDump_unmarking (url : String) (hurl : Unmarked url ∧ '"' ∉ url.toList) : ∀ r ∈ considered otherDump, Unmarking otherDump url r := by
  intro r hr
  have hu : ∀ (u : Option Int) n, userIn otherDump u = some n → Unmarked n := by
    intro u n h
    cases u with
    | none => cases h
    | some u =>
      by_cases hu : u = 1
      · subst hu
        have : n = "bob" := by
          have : userIn otherDump (some 1) = some "bob" := by decide +kernel
          rw [this] at h; exact (Option.some.inj h).symm
        subst this
        exact ⟨by decide +kernel, by decide +kernel⟩
      · have : userIn otherDump (some u) = none := by
          simp [userIn, otherDump, Ne.symm hu]
        rw [this] at h; cases h
  have hr' : r = { typeId := some "1", id := some 5, owner := some 1, title := some "U", created := some "2021-01-01", tags := some "<c>" } := by
    have : considered otherDump =
      [{ typeId := some "1", id := some 5, owner := some 1, title := some "U", created := some "2021-01-01", tags := some "<c>" }] := by rfl
    rw [this] at hr
    simpa using hr
  have ht : ∀ t ∈ tagsIn otherDump (some 5), Unmarked t := by
    have : tagsIn otherDump (some 5) = ["c"] := by decide +kernel
    rw [this]
    intro t ht
    simp only [List.mem_cons, List.not_mem_nil, or_false] at ht
    subst ht
    exact ⟨by decide +kernel, by decide +kernel⟩
  subst hr'
  refine ⟨hurl, fun n => hu _ n, ?_, ?_, ht, ?_⟩
  · intro l h; cases h
  · intro l h; cases h
  · intro c hc _
    refine ⟨fun n => hu _ n, ?_⟩
    have : c = { id := some 1, post := some 5, user := some 1, text := some "d" } := by simpa [otherDump] using hc
    subst this
    intro l h; cases h

/-- If there is room, everything that belongs to the page is displayed. -/
theorem displays_all {α : Type} {belongs : α → Prop} {docs : List α} {item : α → List Node → Prop} {n : Nat} {rest read : List Node}
    (h : Displays belongs docs item n rest read) (hroom : howMany belongs docs ≤ n) (hd : docs.Nodup) (d : α) (hm : d ∈ docs) (hb : belongs d) :
    ∃ ns, item d ns ∧ ∀ x ∈ ns, x ∈ read := by
  classical
  obtain ⟨chosen, items, before, after, h1, h2, h3, h4, -, rfl⟩ := h
  have hsub : chosen.Subperm (docs.filter (fun d => decide (belongs d))) := by
    rw [List.subperm_iff_count] <;> skip
    intro a
    by_cases ha : a ∈ chosen
    · rw [List.count_eq_one_of_mem h1 ha, List.count_eq_one_of_mem (hd.filter _) (List.mem_filter.2 ⟨(h2 a ha).1, by simpa using (h2 a ha).2⟩)]
    · rw [List.count_eq_zero_of_not_mem ha]; omega
  have hlen : (docs.filter (fun d => decide (belongs d))).length ≤ chosen.length := by
    rw [h3, Nat.min_eq_right hroom, howMany, List.countP_eq_length_filter]
  have hc : d ∈ chosen := (hsub.perm_of_length_le hlen).mem_iff.2 (List.mem_filter.2 ⟨hm, by simpa using hb⟩)
  clear h1 h2 h3 hsub hlen
  have : ∃ ns ∈ items, item d ns := by
    induction h4 with
    | nil => cases hc
    | cons hx _ ih =>
      rcases List.mem_cons.1 hc with rfl | hc
      · exact ⟨_, by simp, hx⟩
      · obtain ⟨ns, n1, n2⟩ := ih hc
        exact ⟨ns, by simp [n1], n2⟩
  obtain ⟨ns, n1, n2⟩ := this
  refine ⟨ns, n2, fun x hx => ?_⟩
  simp only [documentBox, List.mem_append, List.mem_flatten]
  exact .inl (.inr (.inl (.inr ⟨ns, n1, hx⟩)))

/-- Of three lines, the page of the cluster of "a" shows "b a". -/
example (corpus : PlainText.Db × Except Err Unit) (hcorpus : Pipeline.create (· = ' ') 100 (demoLines.flatMap Line.render) none = corpus)
    (indexed : File × Except Err Unit) (hindexed : Pipeline.indexPlain letters ⟨2, 2, true⟩ demoSchedule corpus.1 File.empty = indexed)
    (modelled : File × Outcome) (hmodelled : Pipeline.model demoLuck { clusters := some 2, minDocs := 1 } false indexed.1 = modelled)
    (fmt : Format Rat) :
    ∃ c p html, ValueIn modelled.1.data "text" (.text "a") c ∧
      (follow readInt (plain letters corpus.1) modelled.1 (demoVisit (.get ("/index/0/cluster/" ++ toString c))) 1).2 = .cluster p ∧
      clusterHtml fmt .text "0" none p = some html ∧ ⟨"li", [], "b a"⟩ ∈ nodes html := by
  have served := text_file_served (int := readInt) (· = ' ') 100 demoLines demoLines_ok _ (.inl rfl) (by decide +kernel)
    none File.empty (.inl ⟨rfl, rfl, rfl⟩) letters (by decide +kernel) ⟨2, 2, true⟩ demoSchedule demo_fair (fun _ => rfl) demoLuck rfl
    (fun _ => .refl _) { clusters := some 2, minDocs := 1 } false (.inl rfl) (by intro k hk; cases hk; decide) (by decide) (by decide)
    (by decide) (by decide) readInt_reads (demoVisit (.get "/")) demoWeb_fair draws_first
  have main := text_file_on_screen (int := readInt) (· = ' ') 100 demoLines demoLines_ok _ (.inl rfl) (by decide +kernel)
    none File.empty (.inl ⟨rfl, rfl, rfl⟩) letters (by decide +kernel) ⟨2, 2, true⟩ demoSchedule demo_fair (fun _ => rfl) demoLuck rfl
    (fun _ => .refl _) { clusters := some 2, minDocs := 1 } false (.inl rfl) (by intro k hk; cases hk; decide) (by decide) (by decide)
    (by decide) (by decide) readInt_reads (demoVisit (.get "/")) demoWeb_fair draws_first fmt
  dsimp only at served main
  rw [hcorpus, hindexed, hmodelled] at served main
  obtain ⟨-, -, -, -, -, hv, -, -, -⟩ := served
  have hpos : 1 ≤ howMany (fun d : Nat × String => "text" = "text" ∧ ∃ t ∈ letters d.2, Val.text "a" = .text t)
      (numbered (documents (· = ' ') demoLines)) := by
    rw [howMany, Nat.one_le_iff_ne_zero, ← Nat.pos_iff_ne_zero, List.countP_pos_iff]
    exact ⟨(1, "b a"), by decide +kernel, by simpa using (by decide +kernel : "a" ∈ letters "b a")⟩
  obtain ⟨c, hca⟩ := (hv "text" (.text "a")).2 ⟨hpos, .inl rfl⟩
  obtain ⟨p, html, p1, p2, -, p3⟩ := main c ⟨_, _, hca⟩
  refine ⟨c, p, html, hca, p1, p2, ?_⟩
  obtain ⟨ns, rfl, h⟩ := displays_all p3 ((List.countP_le_length ..).trans (by decide +kernel)) (by decide +kernel) (1, "b a") (by decide +kernel)
    ⟨"text", .text "a", ⟨rfl, "a", by decide +kernel, rfl⟩, hca⟩
  exact h _ (by simp)

theorem twoSites_unmarking : ∀ r ∈ allPosts twoSites, Unmarking r.dump r.url r.row := by
  intro r hr
  obtain ⟨h1, h2, -⟩ := allPosts_mem hr
  simp only [twoSites, List.mem_cons, Prod.mk.injEq, List.not_mem_nil, or_false] at h1
  rcases h1 with ⟨e1, e2⟩ | ⟨e1, e2⟩
  · rw [e1] at h2 ⊢; rw [e2]
    exact sampleDump_unmarking "one" ⟨⟨by decide +kernel, by decide +kernel⟩, by decide +kernel⟩ _ h2
  · rw [e1] at h2 ⊢; rw [e2]
    exact otherDump_unmarking "two" ⟨⟨by decide +kernel, by decide +kernel⟩, by decide +kernel⟩ _ h2

/-- The two sites meet the hypotheses of `sites_on_screen_partial`: of the post of the second site its own title is read. -/
example (corpus : SX.Db × Except Err Unit) (hcorpus : Pipeline.addSites twoSites {} = corpus)
    (indexed : File × Except Err Unit) (hindexed : Pipeline.indexSx fieldOps List.reverse ⟨2, 2, true⟩ demoSchedule corpus.1 File.empty = indexed)
    (modelled : File × Outcome) (hmodelled : Pipeline.model demoLuck { clusters := some 2, minDocs := 1 } false indexed.1 = modelled)
    (fmt : Format Rat) :
    ∃ c p html, ValueIn modelled.1.data "Site" (.text "two") c ∧
      (follow readInt (stackExchange fieldOps List.reverse List.reverse corpus.1) modelled.1
        (demoVisit (.get ("/index/0/cluster/" ++ toString c))) 1).2 = .cluster p ∧
      clusterHtml fmt (fun s => .markup s.toList) "0" none p = some html ∧ ⟨"em", [], "U"⟩ ∈ nodes html := by
  have served := sites_served (int := readInt) fieldOps rfl List.reverse List.reverse_perm twoSites
    twoSites_readable (by decide +kernel) twoVocabulary twoVocabulary_covers (by decide +kernel) ⟨2, 2, true⟩
    demoSchedule demo_fair (fun _ => rfl) File.empty (.inl ⟨rfl, rfl, rfl⟩) demoLuck rfl (fun _ => .refl _)
    { clusters := some 2, minDocs := 1 } false (.inl rfl) (by intro k hk; cases hk; decide) (by decide) (by decide) (by decide) (by decide)
    List.reverse List.reverse_perm readInt_reads (demoVisit (.get "/")) demoWeb_fair draws_first
  have main := sites_on_screen_partial (int := readInt) fieldOps rfl List.reverse List.reverse_perm twoSites
    twoSites_readable (by decide +kernel) twoVocabulary twoVocabulary_covers (by decide +kernel) ⟨2, 2, true⟩
    demoSchedule demo_fair (fun _ => rfl) File.empty (.inl ⟨rfl, rfl, rfl⟩) demoLuck rfl (fun _ => .refl _)
    { clusters := some 2, minDocs := 1 } false (.inl rfl) (by intro k hk; cases hk; decide) (by decide) (by decide) (by decide) (by decide)
    List.reverse List.reverse_perm readInt_reads (demoVisit (.get "/")) demoWeb_fair draws_first fmt twoSites_unmarking
  dsimp only at served main
  rw [hcorpus, hindexed, hmodelled] at served main
  obtain ⟨-, -, -, -, -, hv, -, -, -⟩ := served
  have hmem : ((⟨otherDump, "two", 2, (considered otherDump)[0]'(by decide +kernel)⟩, 2) : SitePost × Nat) ∈ (allPosts twoSites).zipIdx := by
    rw [List.mk_mem_zipIdx_iff_getElem?]
    rfl
  have one : ∀ P : SitePost × Nat → Prop, P (⟨otherDump, "two", 2, (considered otherDump)[0]'(by decide +kernel)⟩, 2) →
      1 ≤ howMany P (allPosts twoSites).zipIdx := by
    intro P hP
    rw [howMany, Nat.one_le_iff_ne_zero, ← Nat.pos_iff_ne_zero, List.countP_pos_iff]
    exact ⟨_, hmem, by simpa using hP⟩
  obtain ⟨c, hcs⟩ := (hv "Site" (.text "two")).2 ⟨one _ ⟨"two", rfl, .site⟩, .inl rfl⟩
  obtain ⟨p, html, p1, p2, p3⟩ := main c ⟨_, _, hcs⟩
  refine ⟨c, p, html, hcs, p1, p2, ?_⟩
  obtain ⟨ns, ⟨tags, -, rfl⟩, h⟩ := displays_all p3 ((List.countP_le_length ..).trans (by decide +kernel)) (by
      refine List.Nodup.of_map (·.2) ?_
      rw [show (allPosts twoSites).zipIdx.map (·.2) = List.range' 0 (allPosts twoSites).length from List.zipIdx_map_snd 0 _]
      exact List.nodup_range') _ hmem
    ⟨"Site", .text "two", ⟨"two", rfl, .site⟩, hcs⟩
  refine h _ ?_
  have : (⟨"em", [], "U"⟩ : Node) ∈ (postNodes otherDump "two" ((considered otherDump)[0]'(by decide +kernel)) tags).tail := by
    have hq : orNone (questionIn otherDump ((considered otherDump)[0]'(by decide +kernel))) = "U" := by decide +kernel
    unfold postNodes
    rw [hq]
    simp
  simp only [inItem, List.mem_append, List.mem_cons]
  exact .inl (.inr this)

/-- The two linked tweets meet the hypotheses of `tweets_on_screen_partial`: on the page of the cluster of "by ann" the text "hello" is read. -/
example (indexed : File × Except Err Unit) (hindexed : Pipeline.indexTw twOps ⟨2, 2, true⟩ demoSchedule linkedTweets File.empty = indexed)
    (modelled : File × Outcome) (hmodelled : Pipeline.model demoLuck { clusters := some 2, minDocs := 1 } false indexed.1 = modelled)
    (fmt : Format Rat) :
    ∃ c p html, ValueIn modelled.1.data "by" (.text "ann") c ∧
      (follow readInt (twittersphere twOps (fun d => String.ofList (Html.tweetHtml (TW.tweetView demoDisplay d))) linkedTweets) modelled.1
        (demoVisit (.get ("/index/0/cluster/" ++ toString c))) 1).2 = .cluster p ∧
      clusterHtml fmt (fun s => .markup s.toList) "0" none p = some html ∧ ⟨"p", [], "hello"⟩ ∈ nodes html := by
  obtain ⟨hr, hver, hne, hpos, -, ⟨vocabulary, hsize, hvoc⟩, -⟩ := linkedTweets_indexable
  have served := tweets_served (int := readInt) twOps (fun d => String.ofList (Html.tweetHtml (TW.tweetView demoDisplay d))) linkedTweets
    hr hver hne vocabulary hvoc hsize ⟨2, 2, true⟩ (fun _ => hpos) demoSchedule demo_fair (fun _ => rfl) File.empty (.inl ⟨rfl, rfl, rfl⟩)
    demoLuck rfl (fun _ => .refl _) { clusters := some 2, minDocs := 1 } false (.inl rfl) (by intro k hk; cases hk; decide) (by decide)
    (by decide) (by decide) (by decide) readInt_reads (demoVisit (.get "/")) demoWeb_fair draws_first
  have main := tweets_on_screen_partial (int := readInt) twOps demoDisplay linkedTweets
    hr hver hne vocabulary hvoc hsize ⟨2, 2, true⟩ (fun _ => hpos) demoSchedule demo_fair (fun _ => rfl) File.empty (.inl ⟨rfl, rfl, rfl⟩)
    demoLuck rfl (fun _ => .refl _) { clusters := some 2, minDocs := 1 } false (.inl rfl) (by intro k hk; cases hk; decide) (by decide)
    (by decide) (by decide) (by decide) readInt_reads (demoVisit (.get "/")) demoWeb_fair draws_first fmt
    (fun y hy u hu _ => linkedTweets_harmless y (List.mem_filter.1 hy).1 u hu)
  dsimp only at served main
  rw [hindexed, hmodelled] at served main
  obtain ⟨-, -, -, -, hv, -, -, -⟩ := served
  let y : TW.Tweet := ⟨1, 10, "r", "2020", "hello", some 1, none, some 2, some 3⟩
  have hmem : y ∈ collected linkedTweets := by decide +kernel
  have hshow : TwShows twOps linkedTweets y "by" (.text "ann") := .author ⟨10, "r", some "ann"⟩ "ann" (by decide +kernel) rfl rfl
  have hone : 1 ≤ howMany (fun d => TwShows twOps linkedTweets d "by" (.text "ann")) (collected linkedTweets) := by
    rw [howMany, Nat.one_le_iff_ne_zero, ← Nat.pos_iff_ne_zero, List.countP_pos_iff]
    exact ⟨y, hmem, by simpa using hshow⟩
  obtain ⟨c, hca⟩ := (hv "by" (.text "ann")).2 ⟨hone, .inl rfl⟩
  obtain ⟨p, html, p1, p2, p3⟩ := main c ⟨_, _, hca⟩
  refine ⟨c, p, html, hca, p1, p2, ?_⟩
  obtain ⟨ns, ⟨u, -, -, rfl⟩, h⟩ := displays_all p3 ((List.countP_le_length ..).trans (by decide +kernel))
    (List.Nodup.of_map (·.id) (by decide +kernel)) _ hmem ⟨"by", .text "ann", hshow, hca⟩
  refine h _ ?_
  have : displayed y.text = "hello" := by decide +kernel
  simp only [tweetNodes, this, List.mem_cons]
  simp

end Hyperreal.Props
