import Verif.Props.Screen
import Verif.Props.PipelineLater

/-! # C86 on the screen -/

namespace Hyperreal.Props
open Atomic Spec Spec.Page Cli Migrate Web Serve Pages

variable {int : String → Option Int} {σ : Type} [LinearOrder σ]

/-- The page of a cluster as it is read, with or without documents. -/
theorem screen_if_any {α : Type} {belongs : α → Prop} {docs : List α} {key : α → Val} {render : α → String}
    {c : Int} {n : Nat} {p : ClusterPage σ} (h1 : p.cluster = c) (h3 : p.type = "document") (h4 : p.total = howMany belongs docs)
    (hdocs : ∃ rs, p.results = .documents rs ∧ rs.length = min n p.total ∧ (rs.map (·.2.1)).Nodup ∧
      ∀ r ∈ rs, ∃ d ∈ docs, belongs d ∧ r.2.1 = key d ∧ r.2.2 = render d) (hn : 0 < n)
    (fmt : Format σ) (asDoc : String → Html.Doc) (i : String) (f : Option Nat) (item : α → List Node → Prop)
    (hitem : ∀ d ∈ docs, ∃ ns, item d ns ∧ Whole (Html.item (asDoc (render d))) ns) :
    ∃ html, clusterHtml fmt asDoc i f p = some html ∧
      DisplaysIfAny belongs docs item n
        (clusterPageTags fmt asDoc i f { p with results := .nothing }) (nodes html) := by
  classical
  by_cases ht : 0 < p.total
  · obtain ⟨html, q1, q2⟩ := screen_of_parts h1 h3 h4 hdocs hn ht fmt asDoc i f item hitem
    refine ⟨html, q1, fun _ => q2, fun hno => ?_⟩
    rw [h4, howMany, List.countP_pos_iff] at ht
    obtain ⟨d, d1, d2⟩ := ht
    exact absurd (by simpa using d2) (hno d d1)
  · obtain ⟨rs, r1, r2, -, -⟩ := hdocs
    have hrs : rs = [] := by
      apply List.eq_nil_of_length_eq_zero
      omega
    subst hrs
    have hbox : resultBox asDoc p.type p.total p.results = some [] := by rw [r1]; rfl
    have hhtml : ∃ html, clusterHtml fmt asDoc i f p = some html := by
      unfold clusterHtml
      dsimp only
      rw [hbox]
      exact ⟨_, rfl⟩
    obtain ⟨html, hh⟩ := hhtml
    refine ⟨html, hh, fun ⟨d, d1, d2⟩ => ?_, fun _ => ?_⟩
    · exfalso
      apply ht
      rw [h4, howMany, List.countP_pos_iff]
      exact ⟨d, d1, by simpa using d2⟩
    · have hread := cluster_page_read fmt asDoc i f p html hh (by rw [r1]; intro r hr; cases hr)
      rw [hread]
      obtain ⟨pc, pprev, pnext, pfeat, pres, ptype, ptotal, ppin, pfields⟩ := p
      dsimp only at r1
      subst r1
      rfl

theorem screen_of_later {α : Type} {shows : α → String → Val → Prop} {docs : List α} {key : α → Val} {render : α → String} {db : DB}
    {c : Int} {n : Nat} {p : ClusterPage σ} (h : IsLaterPage shows docs key render db c n p) (hn : 0 < n)
    (fmt : Format σ) (asDoc : String → Html.Doc) (i : String) (f : Option Nat) (item : α → List Node → Prop)
    (hitem : ∀ d ∈ docs, ∃ ns, item d ns ∧ Whole (Html.item (asDoc (render d))) ns) :
    ∃ html, clusterHtml fmt asDoc i f p = some html ∧
      DisplaysIfAny (fun d => ∃ fl v, shows d fl v ∧ ValueIn db fl v c) docs item n
        (clusterPageTags fmt asDoc i f { p with results := .nothing }) (nodes html) :=
  screen_if_any h.cluster h.kind h.total h.documents hn fmt asDoc i f item hitem

/-- **C86, on the screen.** The page of a cluster of the older model shows the new lines that have a token of the cluster, with
exactly their characters; if there are none the page has no box of documents. -/
theorem text_file_later_on_screen (space : Char → Bool) (limit : Nat) (ls : List Line) (hls : ∀ l ∈ ls, l.Ok limit)
    (file : List Char) (hfile : file = ls.flatMap Line.render ∨ file ++ ['\n'] = ls.flatMap Line.render)
    (hne : documents space ls ≠ []) (old : PlainText.Db) (f : File) (hu : Usable f)
    (hsize : ∀ c, (featuresIn f.data c).length ≤ 2 ^ 62) (tokens : String → List String)
    (cfg : IndexCfg) (s : Schedule) (hf : Fair s) (hno : ∀ i, s.fault i = none)
    (hint : ReadsNumbers int) (v : Visit σ) (hw : FairWeb v.web) (hp : Draws v.web.pick) (fmt : Format σ) :
    let docs := numbered (documents space ls)
    let corpus := Pipeline.create space limit file old
    let indexed := Pipeline.indexPlain tokens cfg s corpus.1 f
    let get := fun url => follow int (plain tokens corpus.1) indexed.1 { v with request := .get url }
    let shows := fun (d : Nat × String) (field : String) (x : Val) => field = "text" ∧ ∃ t ∈ tokens d.2, x = .text t
    ∀ c, (∃ fl x, ValueIn f.data fl x c) → ∃ p html, (get ("/index/0/cluster/" ++ toString c) 1).2 = .cluster p ∧
      clusterHtml fmt .text "0" none p = some html ∧ IsLaterPage shows docs (fun d => .int d.1) (·.2) f.data c 30 p ∧
      DisplaysIfAny (fun d => ∃ fl x, shows d fl x ∧ ValueIn f.data fl x c) docs
        (fun d ns => ns = [⟨"li", [], d.2⟩, ⟨"/li", [], ""⟩]) 30
        (clusterPageTags fmt .text "0" none { p with results := .nothing }) (nodes html) := by
  intro docs corpus indexed get shows c hc
  obtain ⟨-, -, -, -, -, -, -, h2⟩ := text_file_later (int := int) space limit ls hls file hfile hne old f hu hsize tokens cfg s hf hno hint v hw hp
  obtain ⟨p, p1, p2⟩ := h2 c hc
  obtain ⟨html, q1, q2⟩ := screen_of_later p2 (by decide) fmt .text "0" none
    (fun d ns => ns = [⟨"li", [], d.2⟩, ⟨"/li", [], ""⟩])
    (fun d _ => ⟨_, rfl, item_whole (.text d.2) (fun s hs => by cases hs)⟩)
  exact ⟨p, html, p1, q1, p2, q2⟩

/-- **C86, on the screen, Stack Exchange**, if no post has a name, license, tag or address with markup and no body leaves a tag open. -/
theorem sites_later_on_screen_partial (t : SX.TextOps) (h0 : t.tokens "" = []) (scan : List SX.Post → List SX.Post)
    (hscan : ∀ l, (scan l).Perm l) (ds : List (SX.Dump × String)) (hds : SitesReadable t ds) (hne : allPosts ds ≠ [])
    (cfg : IndexCfg) (s : Schedule) (hf : Fair s) (hno : ∀ i, s.fault i = none) (f : File) (hu : Usable f)
    (hsize : ∀ c, (featuresIn f.data c).length ≤ 2 ^ 62)
    (order : List String → List String) (ho : ∀ l, (order l).Perm l)
    (hint : ReadsNumbers int) (v : Visit σ) (hw : FairWeb v.web) (hp : Draws v.web.pick) (fmt : Format σ)
    (hmark : ∀ r ∈ allPosts ds, Unmarking r.dump r.url r.row) :
    let docs := (allPosts ds).zipIdx
    let corpus := Pipeline.addSites ds {}
    let indexed := Pipeline.indexSx t scan cfg s corpus.1 f
    let get := fun url' => follow int (stackExchange t scan order corpus.1) indexed.1 { v with request := .get url' }
    let shows := fun (x : SitePost × Nat) (field : String) (y : Val) => ∃ w, y = .text w ∧ SxShows t x.1.doc field w
    ∀ c, (∃ fl x, ValueIn f.data fl x c) → ∃ p html, (get ("/index/0/cluster/" ++ toString c) 1).2 = .cluster p ∧
      clusterHtml fmt (fun s => .markup s.toList) "0" none p = some html ∧
      DisplaysIfAny (fun d => ∃ fl x, shows d fl x ∧ ValueIn f.data fl x c) docs
        (fun x ns => ∃ tags, tags.Perm (tagsIn x.1.dump (x.1.row.parent.or x.1.row.id)) ∧
          ns = inItem (postNodes x.1.dump x.1.url x.1.row tags)) 30
        (clusterPageTags fmt (fun s => .markup s.toList) "0" none { p with results := .nothing }) (nodes html) := by
  intro docs corpus indexed get shows c hc
  obtain ⟨-, -, -, -, -, -, -, render, hr, h2⟩ := sites_later (int := int) t h0 scan hscan ds hds hne cfg s hf hno f hu hsize order ho hint v hw hp
  obtain ⟨p, p1, p2⟩ := h2 c hc
  obtain ⟨html, q1, q2⟩ := screen_of_later p2 (by decide) fmt
    (fun s => .markup s.toList) "0" none
    (fun x ns => ∃ tags, tags.Perm (tagsIn x.1.dump (x.1.row.parent.or x.1.row.id)) ∧ ns = inItem (postNodes x.1.dump x.1.url x.1.row tags))
    (fun x hx => by
      obtain ⟨m1, m2⟩ := (hr x hx).2 (hmark x.1 (List.fst_mem_of_mem_zipIdx hx))
      refine ⟨_, ⟨_, ho _, rfl⟩, ?_⟩
      rw [← m2]
      exact item_whole (.markup (render x).toList) (fun s hs => by cases hs; exact m1))
  exact ⟨p, html, p1, q1, q2⟩

/-- **C86, on the screen, tweets**, if nothing that the template puts in unescaped is read as markup. -/
theorem tweets_later_on_screen_partial (t : TW.TextOps) (x : TW.Display) (tw : TW.Db) (hr : TwReadable t tw)
    (hver : ∃ v, tw.version = some v ∧ 15 ≤ v) (hne : tw.direct ≠ [])
    (cfg : IndexCfg) (hpos : cfg.positions = true → ∀ x ∈ collected tw, NothingMissing tw x)
    (s : Schedule) (hf : Fair s) (hno : ∀ i, s.fault i = none) (f : File) (hu : Usable f)
    (hsize : ∀ c, (featuresIn f.data c).length ≤ 2 ^ 62)
    (hint : ReadsNumbers int) (v : Visit σ) (hw : FairWeb v.web) (hp : Draws v.web.pick) (fmt : Format σ)
    (hharm : ∀ y ∈ collected tw, ∀ u ∈ tw.usersLatest, u.user = y.user → Harmless x y u) :
    let docs := collected tw
    let indexed := Pipeline.indexTw t cfg s tw f
    let get := fun url' => follow int (twittersphere t (fun d => String.ofList (Html.tweetHtml (TW.tweetView x d))) tw) indexed.1
      { v with request := .get url' }
    ∀ c, (∃ fl x, ValueIn f.data fl x c) → ∃ p html, (get ("/index/0/cluster/" ++ toString c) 1).2 = .cluster p ∧
      clusterHtml fmt (fun s => .markup s.toList) "0" none p = some html ∧
      DisplaysIfAny (fun d => ∃ fl x, TwShows t tw d fl x ∧ ValueIn f.data fl x c) docs
        (fun y ns => ∃ u ∈ tw.usersLatest, u.user = y.user ∧ ns = tweetNodes x y u) 30
        (clusterPageTags fmt (fun s => .markup s.toList) "0" none { p with results := .nothing }) (nodes html) := by
  intro docs indexed get c hc
  obtain ⟨-, -, -, -, -, -, render, hrd, h2⟩ := tweets_later (int := int) t (fun d => String.ofList (Html.tweetHtml (TW.tweetView x d))) tw hr hver hne
    cfg hpos s hf hno f hu hsize hint v hw hp
  obtain ⟨p, p1, p2⟩ := h2 c hc
  obtain ⟨html, q1, q2⟩ := screen_of_later p2 (by decide) fmt
    (fun s => .markup s.toList) "0" none (fun y ns => ∃ u ∈ tw.usersLatest, u.user = y.user ∧ ns = tweetNodes x y u)
    (fun y hy => by
      obtain ⟨doc, d1, d2, d3⟩ := hrd y hy
      obtain ⟨d, u, e1, e2, e3, e4, e5, e6⟩ := tweet_doc hr ⟨y, (List.mem_filter.1 hy).1, rfl⟩
      rw [d1] at e1
      cases e1
      rw [d2] at e5
      refine ⟨_, ⟨u, e4, e5, rfl⟩, ?_⟩
      rw [d3, String.toList_ofList]
      have := tweet_read x doc u e6 (by rw [d2]; exact hharm y hy u e4 e5)
      rw [d2] at this
      exact this)
  exact ⟨p, html, p1, q1, q2⟩

/-! ## Examples -/

/-- The lines of the example of `text_file_later` on the screen: the page of the cluster 1 shows the line `b a`, that of the
cluster 2 no box. -/
example (corpus : PlainText.Db × Except Err Unit) (hcorpus : Pipeline.create (· = ' ') 100 (demoLines.flatMap Line.render) none = corpus)
    (indexed : File × Except Err Unit) (hindexed : Pipeline.indexPlain letters ⟨2, 2, true⟩ demoSchedule corpus.1 earlierFile = indexed)
    (fmt : Format Rat) :
    let get := fun url => (follow readInt (plain letters corpus.1) indexed.1 (demoVisit (.get url)) 1).2
    (∃ p html, get ("/index/0/cluster/" ++ toString (1 : Int)) = .cluster p ∧ clusterHtml fmt .text "0" none p = some html ∧
      ⟨"li", [], "b a"⟩ ∈ nodes html) ∧
    (∃ p html, get ("/index/0/cluster/" ++ toString (2 : Int)) = .cluster p ∧ clusterHtml fmt .text "0" none p = some html ∧
      nodes html = clusterPageTags fmt .text "0" none { p with results := .nothing }) := by
  obtain ⟨va, -, vx⟩ := earlierFile_values
  have main := text_file_later_on_screen (int := readInt) (· = ' ') 100 demoLines demoLines_ok _ (.inl rfl) (by decide +kernel)
    none earlierFile earlierFile_usable earlierFile_size letters ⟨2, 2, true⟩ demoSchedule demo_fair (fun _ => rfl)
    readInt_reads (demoVisit (.get "/")) demoWeb_fair draws_first fmt
  dsimp only at main
  rw [hcorpus, hindexed] at main
  refine ⟨?_, ?_⟩
  · obtain ⟨p, html, p1, p2, -, p4, -⟩ := main 1 ⟨_, _, va⟩
    have hmem : ((1, "b a") : Nat × String) ∈ numbered (documents (· = ' ') demoLines) := by decide +kernel
    have hbel : ∃ fl x, (fl = "text" ∧ ∃ t ∈ letters "b a", x = Val.text t) ∧ ValueIn earlierFile.data fl x 1 :=
      ⟨"text", .text "a", ⟨rfl, "a", by decide +kernel, rfl⟩, va⟩
    refine ⟨p, html, p1, p2, ?_⟩
    obtain ⟨ns, rfl, n2⟩ := displays_all (p4 ⟨_, hmem, hbel⟩) ((List.countP_le_length ..).trans (by decide +kernel)) (by decide +kernel)
      _ hmem hbel
    exact n2 _ (by simp)
  · obtain ⟨p, html, p1, p2, -, -, p4⟩ := main 2 ⟨_, _, vx⟩
    refine ⟨p, html, p1, p2, p4 ?_⟩
    rintro d hd ⟨fl, v, ⟨rfl, t, ht, rfl⟩, r, hr, e1, e2, e3⟩
    have hall : ∀ r ∈ earlierFile.data.features, assign earlierFile.data r.fid = some 2 → r.value = .text "x" := by decide +kernel
    have hnone : ∀ d ∈ numbered (documents (· = ' ') demoLines), "x" ∉ letters d.2 := by decide +kernel
    have := hall r hr e3
    rw [e2] at this
    cases this
    exact hnone d hd ht

/-- The hypotheses on the markup are met by the two sites and by the two tweets of the other examples. -/
example : (∀ r ∈ allPosts twoSites, Unmarking r.dump r.url r.row) ∧
    (∀ y ∈ collected linkedTweets, ∀ u ∈ linkedTweets.usersLatest, u.user = y.user → Harmless demoDisplay y u) :=
  ⟨twoSites_unmarking, fun y hy u hu _ => linkedTweets_harmless y (List.mem_filter.1 hy).1 u hu⟩

end Hyperreal.Props
