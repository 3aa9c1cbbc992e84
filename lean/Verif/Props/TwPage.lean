import Verif.Lemmas.TwPage
import Verif.Props.SxPage
import Verif.Props.Corpora

/-! # C84: rendered tweets -/

namespace Hyperreal.Props
open Spec Spec.Page TW Atomic Pages Html

theorem orNull_mem {x : Option String} {p : Char → Prop} (h : ∀ s, x = some s → ∀ c ∈ s.toList, p c) (h0 : ∀ c ∈ "None".toList, p c) :
    ∀ c ∈ (orNull x).toList, p c := by
  cases x with
  | none => exact h0
  | some s => exact h s rfl

theorem count_plain (n : Option Nat) : '<' ∉ (orNull (n.map toString)).toList ∧ '&' ∉ (orNull (n.map toString)).toList := by
  cases n with
  | none => exact ⟨by show '<' ∉ "None".toList; decide +kernel, by show '&' ∉ "None".toList; decide +kernel⟩
  | some n =>
    have := fun c => int_no (n : Int) c
    exact ⟨this '<' (by decide +kernel), this '&' (by decide +kernel)⟩

theorem shown_plain {s : String} (h : '&' ∉ s.toList) : displayed s = s := by
  unfold displayed; rw [readText_plain h, String.ofList_toList]

theorem tagPiece_shown (name : String) (hn : ∀ c ∈ name.toList, c ≠ '>' ∧ isSpace c = false) (s : String) (hs : '<' ∉ s.toList) :
    Whole (tagPiece name.toList s.toList) [⟨name, [], displayed s⟩] := tagPiece_text name hn s.toList hs

set_option maxRecDepth 20000 in
/-- One tweet in the list. -/
theorem tweet_read (x : Display) (d : TW.Doc) (u : UserRow) (hu : d.username = u.name) (h : Harmless x d.tweet u) :
    Whole (item (.markup (tweetHtml (tweetView x d)))) (tweetNodes x d.tweet u) := by
  obtain ⟨tw, labels, hashtags, mentions, urls, domains, username, r1, r2, r3⟩ := d
  simp only at hu h ⊢
  subst hu
  have e1 : item (.markup (tweetHtml (tweetView x ⟨tw, labels, hashtags, mentions, urls, domains, u.name, r1, r2, r3⟩))) =
      tagPiece "li".toList [] ++ (tagPiece "div".toList [] ++ (tagPiece "span".toList [] ++ (imagePiece (orNull (x.image tw.user)).toList ++
      (linkPiece ("https://twitter.com/" ++ orNull u.name).toList ("@" ++ orNull u.name).toList ++
      (tagPiece "/a".toList (orNull (x.name tw.user) ++ " on ").toList ++
      (linkPiece ("https://twitter.com/" ++ orNull u.name ++ "/status/" ++ toString tw.id).toList [] ++
      (timePiece tw.created.toList tw.created.toList ++ (tagPiece "/time".toList [] ++ (tagPiece "/a".toList [] ++ (tagPiece "/span".toList [] ++
      (tagPiece "p".toList tw.text.toList ++ (tagPiece "/p".toList [] ++ (tagPiece "details".toList [] ++ (tagPiece "summary".toList "Metadata".toList ++
      (tagPiece "/summary".toList [] ++ (tagPiece "dl".toList [] ++
      (tagPiece "dt".toList "Likes".toList ++ (tagPiece "/dt".toList [] ++ (tagPiece "dd".toList (orNull ((x.likes tw.id).map toString)).toList ++
      (tagPiece "/dd".toList [] ++
      (tagPiece "dt".toList "Replies".toList ++ (tagPiece "/dt".toList [] ++ (tagPiece "dd".toList (orNull ((x.replies tw.id).map toString)).toList ++
      (tagPiece "/dd".toList [] ++
      (tagPiece "dt".toList "Quote Tweets".toList ++ (tagPiece "/dt".toList [] ++ (tagPiece "dd".toList (orNull ((x.quotes tw.id).map toString)).toList ++
      (tagPiece "/dd".toList [] ++
      (tagPiece "dt".toList "Retweets".toList ++ (tagPiece "/dt".toList [] ++ (tagPiece "dd".toList (orNull ((x.retweets tw.id).map toString)).toList ++
      (tagPiece "/dd".toList [] ++
      (tagPiece "dt".toList "Retrieved at".toList ++ (tagPiece "/dt".toList [] ++ (tagPiece "dd".toList tw.retrieved.toList ++
      (tagPiece "/dd".toList [] ++ (tagPiece "/dl".toList [] ++ (tagPiece "/details".toList [] ++ "</div </li>".toList)))))))))))))))))))))))))))))))))))))) := by
    unfold item tweetHtml tweetView tagPiece linkPiece timePiece imagePiece SX.lit
    simp only [List.append_assoc, List.cons_append, List.nil_append, String.toList_append]
    rfl
  rw [e1]
  have t : ∀ n : String, (∀ c ∈ n.toList, c ≠ '>' ∧ isSpace c = false) → Whole (tagPiece n.toList []) [⟨n, [], ""⟩] := tagPiece_tag
  have p : ∀ (n s : String), (∀ c ∈ n.toList, c ≠ '>' ∧ isSpace c = false) → ('<' ∉ s.toList ∧ '&' ∉ s.toList) →
    Whole (tagPiece n.toList s.toList) [⟨n, [], s⟩] := fun n s => tagPiece_static n s
  have hd : ∀ c ∈ "dd".toList, c ≠ '>' ∧ isSpace c = false := by decide +kernel
  have cnt : ∀ n : Option Nat, Whole (tagPiece "dd".toList (orNull (n.map toString)).toList) [⟨"dd", [], count n⟩] :=
    fun n => p "dd" _ hd (count_plain n)
  have hun := orNull_mem (x := u.name) (p := fun c => c ≠ '"' ∧ c ≠ '<')
    (fun s hs c hc => ⟨fun e => (h.username s hs).1 (e ▸ hc), fun e => (h.username s hs).2 (e ▸ hc)⟩) (by decide +kernel)
  have hnm := orNull_mem (x := x.name tw.user) (p := fun c => c ≠ '<') (fun s hs c hc e => h.name s hs (e ▸ hc)) (by decide +kernel)
  have him := orNull_mem (x := x.image tw.user) (p := fun c => c ≠ '"' ∧ c ≠ '>' ∧ isSpace c = false) h.image (by decide +kernel)
  have w1 := image_whole _ him
  have w2 := link_text ("https://twitter.com/" ++ orNull u.name).toList ("@" ++ orNull u.name).toList
    (by rw [String.toList_append, List.mem_append, not_or]; exact ⟨by decide +kernel, fun hc => (hun _ hc).1 rfl⟩)
    (by rw [String.toList_append, List.mem_append, not_or]; exact ⟨by decide +kernel, fun hc => (hun _ hc).2 rfl⟩)
  have w3 := tagPiece_shown "/a" (by decide +kernel) (orNull (x.name tw.user) ++ " on ")
    (by rw [String.toList_append, List.mem_append, not_or]; exact ⟨fun hc => hnm _ hc rfl, by decide +kernel⟩)
  have w4 := link_text ("https://twitter.com/" ++ orNull u.name ++ "/status/" ++ toString tw.id).toList []
    (by
      simp only [String.toList_append, List.mem_append, not_or]
      exact ⟨⟨⟨by decide +kernel, fun hc => (hun _ hc).1 rfl⟩, by decide +kernel⟩, int_no (tw.id : Int) _ (by decide +kernel)⟩) (by simp)
  have w5 := time_text tw.created.toList tw.created.toList h.created.1 h.created.2
  have w6 := tagPiece_shown "p" (by decide +kernel) tw.text h.text
  have w7 := tagPiece_shown "dd" hd tw.retrieved h.retrieved
  have dt : ∀ c ∈ "dt".toList, c ≠ '>' ∧ isSpace c = false := by decide +kernel
  have dt' := t "/dt" (by decide +kernel)
  have dd' := t "/dd" (by decide +kernel)
  have all := (t "li" (by decide +kernel)).append <| (t "div" (by decide +kernel)).append <| (t "span" (by decide +kernel)).append <|
    w1.append <| w2.append <| w3.append <| w4.append <| w5.append <| (t "/time" (by decide +kernel)).append <| (t "/a" (by decide +kernel)).append <|
    (t "/span" (by decide +kernel)).append <| w6.append <| (t "/p" (by decide +kernel)).append <| (t "details" (by decide +kernel)).append <|
    (p "summary" "Metadata" (by decide +kernel) (by decide +kernel)).append <| (t "/summary" (by decide +kernel)).append <|
    (t "dl" (by decide +kernel)).append <| (p "dt" "Likes" dt (by decide +kernel)).append <| dt'.append <| (cnt (x.likes tw.id)).append <|
    dd'.append <| (p "dt" "Replies" dt (by decide +kernel)).append <| dt'.append <| (cnt (x.replies tw.id)).append <|
    dd'.append <| (p "dt" "Quote Tweets" dt (by decide +kernel)).append <| dt'.append <| (cnt (x.quotes tw.id)).append <|
    dd'.append <| (p "dt" "Retweets" dt (by decide +kernel)).append <| dt'.append <| (cnt (x.retweets tw.id)).append <|
    dd'.append <| (p "dt" "Retrieved at" dt (by decide +kernel)).append <| dt'.append <| w7.append <|
    dd'.append <| (t "/dl" (by decide +kernel)).append <| (t "/details" (by decide +kernel)).append unfinished_whole
  exact all

/-- A stored tweet of a readable database has a document, with its author's present profile. -/
theorem tweet_doc {t : TW.TextOps} {db : TW.Db} (hr : TwReadable t db) {k : Nat} (hk : ∃ tw ∈ db.tweets, tw.id = k) :
    ∃ d u, TW.docOf t db k = .ok d ∧ d.tweet ∈ db.tweets ∧ d.tweet.id = k ∧ u ∈ db.usersLatest ∧ u.user = d.tweet.user ∧
      d.username = u.name := by
  obtain ⟨tw, htw, rfl⟩ := hk
  have hq : ∃ tw', (db.tweets.filter (fun x => x.id = tw.id)).head? = some tw' := by
    cases h : db.tweets.filter (fun x => decide (x.id = tw.id)) with
    | nil => exact absurd (List.filter_eq_nil_iff.1 h tw htw) (by simp)
    | cons a l => exact ⟨a, rfl⟩
  obtain ⟨tw', hq⟩ := hq
  obtain ⟨hm, he⟩ := List.mem_filter.1 (List.mem_of_mem_head? (Option.mem_def.2 hq))
  have he : tw'.id = tw.id := by simpa using he
  obtain ⟨v, hv1, hv2⟩ := hr.users tw' hm
  have hu : ∃ u, (db.usersLatest.filter (fun u => u.user = tw'.user)).head? = some u := by
    cases h : db.usersLatest.filter (fun u => decide (u.user = tw'.user)) with
    | nil => exact absurd (List.filter_eq_nil_iff.1 h v hv1) (by simpa using hv2)
    | cons a l => exact ⟨a, rfl⟩
  obtain ⟨u, hu⟩ := hu
  obtain ⟨hu1, hu2⟩ := List.mem_filter.1 (List.mem_of_mem_head? (Option.mem_def.2 hu))
  obtain ⟨doms, hdoms⟩ := mapM_ok_of t.hostname (TW.externalUrls t db tw') (by
    intro s hs
    obtain ⟨r, h1, h2⟩ := List.mem_filterMap.1 hs
    have h1' := (List.mem_filter.1 h1).1
    cases h3 : r.unwound.or (r.expanded.or r.url) with
    | none => simp [h3] at h2
    | some x =>
      simp only [h3] at h2
      have hx : x = s := by
        by_cases hi : t.internal x <;> simp [hi] at h2
        exact h2
      subst hx
      refine hr.urls r h1' (some x) ?_ x rfl
      cases ha : r.unwound with
      | some a => simp [ha] at h3; simp [h3]
      | none =>
        cases hb : r.expanded with
        | some b => simp [ha, hb] at h3; simp [h3]
        | none => simp [ha, hb] at h3; simp [h3])
  unfold TW.docOf
  rw [hq]
  dsimp only
  rw [hdoms]
  dsimp only
  rw [hu]
  exact ⟨_, u, rfl, hm, he, hu1, by simpa using hu2, rfl⟩

theorem released (db : TW.Db) (sn : List TW.Db) :
    ∃ c1 c2, Conn.release (Conn.savepoint (Conn.savepoint (⟨db, db, [], false, 0, false, sn⟩ : Conn TW.Db) "render_docs_html") "docs") "docs" = some c1 ∧
      c1.stack ≠ [] ∧ c1.work = db ∧ c1.committed = db ∧
      Conn.release c1 "render_docs_html" = some c2 ∧ Idle c2 db := by
  refine ⟨_, _, by simp [Conn.savepoint, Conn.log, Conn.release, findSp]; rfl, ?_, rfl, rfl, by simp [Conn.log, Conn.release, findSp]; rfl, ?_⟩
  · simp
  · exact ⟨rfl, rfl, rfl, rfl, rfl, rfl⟩

/-- **C84.** `render_docs_html` of tweets returns one page per key, in order; a browser reads in the list of them exactly the data of
the tweets the keys stand for, with the present profiles of their authors, as long as no name or text contains `<` and nothing
ends an attribute.  The call changes nothing, and nothing is left open. -/
theorem rendered_tweets_partial (t : TW.TextOps) (x : Display) (db : TW.Db) (hr : TwReadable t db) (c : Conn TW.Db) (hc : Idle c db)
    (keys : List Nat) (hk : ∀ k ∈ keys, ∃ tw ∈ db.tweets, tw.id = k) :
    ∃ (pages : List (Nat × List Char)) (of : List (TW.Tweet × UserRow)), (TW.renderHtml t x keys c).2 = .ok pages ∧
      Idle (TW.renderHtml t x keys c).1 db ∧ pages.map (·.1) = keys ∧
      List.Forall₂ (fun k e => e.1 ∈ db.tweets ∧ e.1.id = k ∧ e.2 ∈ db.usersLatest ∧ e.2.user = e.1.user) keys of ∧
      ((∀ e ∈ of, Harmless x e.1 e.2) →
        nodes (docList (pages.map (fun p => .markup p.2))) =
          [⟨"", [], ""⟩, ⟨"ul", [("class", "doc-list")], ""⟩] ++ of.flatMap (fun e => tweetNodes x e.1 e.2) ++ [⟨"/ul", [], ""⟩]) := by
  obtain ⟨cm, wk, st, bg, lv, ch, sn⟩ := c
  obtain ⟨h1, h2, h3, h4, h5, h6⟩ := hc
  dsimp only at h1 h2 h3 h4 h5 h6
  subst h1 h2 h3 h4 h5 h6
  have hall : ∀ k : Nat, ∃ d u, k ∈ keys → TW.docOf t wk k = .ok d ∧ d.tweet ∈ wk.tweets ∧ d.tweet.id = k ∧ u ∈ wk.usersLatest ∧
      u.user = d.tweet.user ∧ d.username = u.name := by
    intro k
    by_cases hkm : k ∈ keys
    · obtain ⟨d, u, h⟩ := tweet_doc hr (hk k hkm)
      exact ⟨d, u, fun _ => h⟩
    · exact ⟨⟨⟨0, 0, "", "", "", none, none, none, none⟩, [], [], [], [], [], none, none, none, none⟩, ⟨0, "", none⟩, fun h => absurd h hkm⟩
  choose g v hg using hall
  have hm := mapM_ok (fun k => (TW.docOf t wk k).map (fun d => (k, tweetHtml (tweetView x d)))) (fun k => (k, tweetHtml (tweetView x (g k)))) keys
    (fun k hkm => by rw [(hg k hkm).1]; rfl)
  obtain ⟨c1, c2, r1, -, -, -, r2, r3⟩ := released wk sn
  have e : TW.renderHtml t x keys ⟨wk, wk, [], false, 0, false, sn⟩ = (c2, .ok (keys.map (fun k => (k, tweetHtml (tweetView x (g k)))))) := by
    unfold TW.renderHtml
    dsimp only
    have hw : (Conn.savepoint (Conn.savepoint (⟨wk, wk, [], false, 0, false, sn⟩ : Conn TW.Db) "render_docs_html") "docs").work = wk := rfl
    rw [hw, hm]
    dsimp only
    rw [r1]
    dsimp only
    rw [r2]
  rw [e]
  refine ⟨_, keys.map (fun k => ((g k).tweet, v k)), rfl, r3, by rw [List.map_map]; exact List.map_id' _, ?_, ?_⟩
  · rw [List.forall₂_map_right_iff, List.forall₂_same]
    intro k hkm
    obtain ⟨-, a, b, c, d, -⟩ := hg k hkm
    exact ⟨a, b, c, d⟩
  · intro hh
    have w : Whole ((keys.map (fun k => Html.Doc.markup (tweetHtml (tweetView x (g k))))).flatMap item)
        ((keys.map (fun k => ((g k).tweet, v k))).flatMap (fun e => tweetNodes x e.1 e.2)) := by
      rw [List.flatMap_map, List.flatMap_map]
      exact whole_flatMap keys _ _ (fun k hkm => tweet_read x (g k) (v k) (hg k hkm).2.2.2.2.2 (hh _ (List.mem_map.2 ⟨k, hkm, rfl⟩)))
    have w1 : Whole (SX.lit "<ul class=\"doc-list\">") [⟨"ul", [("class", "doc-list")], ""⟩] := by
      unfold SX.lit
      exact lines_whole' (fun _ => "") ["<ul class=\"doc-list\">"] [⟨"ul", [("class", "doc-list")], ""⟩] (by decide +kernel)
    have w2 : Whole (SX.lit "</ul>") [⟨"/ul", [], ""⟩] := by unfold SX.lit; exact tagPiece_tag "/ul" (by decide +kernel)
    have := ((w1.append w).append w2).nodes
    rw [List.map_map]
    unfold docList
    exact this

/-- **C84, refuted** for unknown keys: the call raises IndexError and its savepoint stays open. -/
theorem tweets_unknown_key_leaves_savepoint (t : TW.TextOps) (x : Display) (db : TW.Db) (hr : TwReadable t db) (c : Conn TW.Db)
    (hc : Idle c db) (keys : List Nat) (hk : ∃ k ∈ keys, ∀ tw ∈ db.tweets, tw.id ≠ k) :
    (TW.renderHtml t x keys c).2 = .error .indexError ∧ (TW.renderHtml t x keys c).1.inTxn = true ∧
      ¬ ∃ db', Idle (TW.renderHtml t x keys c).1 db' := by
  obtain ⟨cm, wk, st, bg, lv, ch, sn⟩ := c
  obtain ⟨h1, h2, h3, h4, h5, h6⟩ := hc
  dsimp only at h1 h2 h3 h4 h5 h6
  subst h1 h2 h3 h4 h5 h6
  obtain ⟨k, hkm, hno⟩ := hk
  have hkey : TW.docOf t wk k = .error .indexError := by
    have : wk.tweets.filter (fun x => decide (x.id = k)) = [] := by
      rw [List.filter_eq_nil_iff]
      intro y hy
      simpa using hno y hy
    unfold TW.docOf
    rw [this]
    rfl
  have herr : ∀ y e, TW.docOf t wk y = .error e → e = .indexError := by
    intro y e h
    by_cases hy : ∃ tw ∈ wk.tweets, tw.id = y
    · obtain ⟨d, u, h', -⟩ := tweet_doc hr hy
      rw [h'] at h; cases h
    · have : wk.tweets.filter (fun x => decide (x.id = y)) = [] := by
        rw [List.filter_eq_nil_iff]
        intro z hz
        simpa using fun e => hy ⟨z, hz, e⟩
      unfold TW.docOf at h
      rw [this] at h
      cases h; rfl
  have hm := mapM_error (fun k => (TW.docOf t wk k).map (fun d => (k, tweetHtml (tweetView x d)))) keys k hkm .indexError
    (by rw [hkey]; rfl) (by
      intro y _ e' h
      cases hy : TW.docOf t wk y with
      | ok v => rw [hy] at h; cases h
      | error e => rw [hy] at h; cases h; exact herr y _ hy)
  obtain ⟨c1, c2, r1, r4, -, -, -, -⟩ := released wk sn
  have e : TW.renderHtml t x keys ⟨wk, wk, [], false, 0, false, sn⟩ = (c1, .error .indexError) := by
    unfold TW.renderHtml
    dsimp only
    have hw : (Conn.savepoint (Conn.savepoint (⟨wk, wk, [], false, 0, false, sn⟩ : Conn TW.Db) "render_docs_html") "docs").work = wk := rfl
    rw [hw, hm]
    dsimp only
    rw [r1]
  rw [e]
  refine ⟨rfl, ?_, fun ⟨_, h⟩ => r4 h.stack⟩
  show (c1.begun || !c1.stack.isEmpty) = true
  cases hst : c1.stack with
  | nil => exact absurd hst r4
  | cons a l => simp

/-- Counts and profiles for the examples. -/
def demoDisplay : Display where
  likes := fun i => some (i + 1)
  replies := fun _ => some 0
  quotes := fun _ => none
  retweets := fun _ => some 2
  image := fun _ => some "https://p/x.png"
  name := fun u => if u = 10 then some "Ann &amp; Co" else none

/-- The two tweets of ann and bob. -/
example :
    let r := TW.renderHtml twOps demoDisplay [3, 2] (Conn.fresh linkedTweets)
    r.2.toOption.map (fun pages => (nodes (docList (pages.map (fun p => .markup p.2)))).map (fun n => (n.tag, n.text))) =
      some ([("", ""), ("ul", "")] ++
        [("li", ""), ("div", ""), ("span", ""), ("img", ""), ("a", "@ann"), ("/a", "Ann & Co on "), ("a", ""), ("time", "2020"), ("/time", ""),
         ("/a", ""), ("/span", ""), ("p", "hi"), ("/p", ""), ("details", ""), ("summary", "Metadata"), ("/summary", ""), ("dl", ""),
         ("dt", "Likes"), ("/dt", ""), ("dd", "4"), ("/dd", ""), ("dt", "Replies"), ("/dt", ""), ("dd", "0"), ("/dd", ""),
         ("dt", "Quote Tweets"), ("/dt", ""), ("dd", "None"), ("/dd", ""), ("dt", "Retweets"), ("/dt", ""), ("dd", "2"), ("/dd", ""),
         ("dt", "Retrieved at"), ("/dt", ""), ("dd", "r"), ("/dd", ""), ("/dl", ""), ("/details", ""), ("/div", "")] ++
        [("li", ""), ("div", ""), ("span", ""), ("img", ""), ("a", "@bob"), ("/a", "None on "), ("a", ""), ("time", "2020"), ("/time", ""),
         ("/a", ""), ("/span", ""), ("p", ""), ("/p", ""), ("details", ""), ("summary", "Metadata"), ("/summary", ""), ("dl", ""),
         ("dt", "Likes"), ("/dt", ""), ("dd", "3"), ("/dd", ""), ("dt", "Replies"), ("/dt", ""), ("dd", "0"), ("/dd", ""),
         ("dt", "Quote Tweets"), ("/dt", ""), ("dd", "None"), ("/dd", ""), ("dt", "Retweets"), ("/dt", ""), ("dd", "2"), ("/dd", ""),
         ("dt", "Retrieved at"), ("/dt", ""), ("dd", "r"), ("/dd", ""), ("/dl", ""), ("/details", ""), ("/div", "")] ++
        [("/ul", "")]) ∧ TwReadable twOps linkedTweets :=
  ⟨by decide +kernel, linkedTweets_readable [2, 1] (by decide) (by decide)⟩

/-- These tweets are harmless. -/
theorem linkedTweets_harmless : ∀ tw ∈ linkedTweets.tweets, ∀ u ∈ linkedTweets.usersLatest, Harmless demoDisplay tw u := by
  intro tw htw u hu
  have hi : ∀ c ∈ "https://p/x.png".toList, c ≠ '"' ∧ c ≠ '>' ∧ isSpace c = false := by decide +kernel
  have hn : ∀ s, demoDisplay.name tw.user = some s → '<' ∉ s.toList := by
    intro s hs
    unfold demoDisplay at hs
    by_cases h10 : tw.user = 10
    · simp only [h10, if_true, Option.some.injEq] at hs; subst hs; decide +kernel
    · simp [h10] at hs
  have hq : ∀ u ∈ linkedTweets.usersLatest, ∀ s, u.name = some s → '"' ∉ s.toList ∧ '<' ∉ s.toList := by
    intro u hu s hs
    simp only [linkedTweets, List.mem_cons, List.not_mem_nil, or_false] at hu
    rcases hu with rfl | rfl <;> (cases hs; decide +kernel)
  have ht : ∀ tw ∈ linkedTweets.tweets, ('"' ∉ tw.created.toList ∧ '<' ∉ tw.created.toList) ∧ '<' ∉ tw.text.toList ∧ '<' ∉ tw.retrieved.toList := by
    decide +kernel
  obtain ⟨a, b, c⟩ := ht tw htw
  exact ⟨fun s hs => by cases hs; exact hi, hq u hu, hn, a, b, c⟩

end Hyperreal.Props
