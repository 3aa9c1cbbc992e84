import Verif.Lemmas.SxPage
import Verif.Lemmas.Links
import Verif.Props.SxRender

/-! # C63: what a browser reads in the page of a post -/

namespace Hyperreal.Props
open Spec Spec.Page SX Atomic Pages

theorem tagPiece_tag (name : String) (hn : ∀ c ∈ name.toList, c ≠ '>' ∧ isSpace c = false) : Whole (tagPiece name.toList []) [⟨name, [], ""⟩] :=
  tagPiece_text name hn [] (by simp)

theorem tagPiece_static (name t : String) (hn : ∀ c ∈ name.toList, c ≠ '>' ∧ isSpace c = false) (ht : '<' ∉ t.toList ∧ '&' ∉ t.toList) :
    Whole (tagPiece name.toList t.toList) [⟨name, [], t⟩] := by
  have := tagPiece_text name hn t.toList ht.1
  rwa [readText_plain ht.2, String.ofList_toList] at this

theorem int_no (i : Int) (c : Char) (hc : c.isDigit = false ∧ c ≠ '-') : c ∉ (toString i).toList := by
  intro h
  rcases Web.numeral_chars i c h with h' | h'
  · rw [hc.1] at h'; cases h'
  · exact hc.2 h'

theorem unmarked_orNone {x : Option String} (h : ∀ n, x = some n → Unmarked n) : '<' ∉ verbatim x ∧ '&' ∉ verbatim x := by
  cases x with
  | none => decide +kernel
  | some n => exact h n rfl

theorem escaped_no_tag (x : Option String) : '<' ∉ escaped x := by
  intro h
  unfold escaped at h
  obtain ⟨c, -, hc⟩ := List.mem_flatMap.1 h
  unfold escapeChar at hc
  split_ifs at hc with h1 h2 h3 h4 h5
  · revert hc; decide +kernel
  · revert hc; decide +kernel
  · revert hc; decide +kernel
  · revert hc; decide +kernel
  · revert hc; decide +kernel
  · exact h2 (List.mem_singleton.1 hc).symm

theorem ofList_verbatim (x : Option String) : String.ofList (verbatim x) = orNone x := by
  unfold verbatim orNone; rw [String.ofList_toList]

theorem person_whole (url : String) (hurl : Unmarked url ∧ '"' ∉ url.toList) (user : Option Int) (name : Option String)
    (hname : ∀ n, name = some n → Unmarked n) : Whole (personHtml url user name) (personNodes url user name) := by
  have hdel : Whole (lit "<Deleted User>") [⟨"Deleted", [("User", "")], ""⟩] := by unfold lit; exact deleted_whole
  cases user with
  | none => exact hdel
  | some u =>
    by_cases hu : u = 0
    · subst hu; exact hdel
    · have e1 : personHtml url (some u) name =
          linkPiece (url ++ "/users/" ++ toString u).toList (verbatim name) ++ tagPiece "/a".toList [] := by
        unfold personHtml linkPiece tagPiece lit
        simp only [if_neg hu, String.toList_append, List.append_assoc]
        rfl
      have e2 : personNodes url (some u) name =
          [⟨"a", [("href", url ++ "/users/" ++ toString u)], orNone name⟩] ++ [⟨"/a", [], ""⟩] := by
        simp [personNodes, hu]
      rw [e1, e2]
      have ha : '&' ∉ (url ++ "/users/" ++ toString u).toList := by
        simp only [String.toList_append, List.mem_append, not_or]
        exact ⟨⟨hurl.1.2, by decide +kernel⟩, int_no u _ (by decide +kernel)⟩
      have hq : '"' ∉ (url ++ "/users/" ++ toString u).toList := by
        simp only [String.toList_append, List.mem_append, not_or]
        exact ⟨⟨hurl.2, by decide +kernel⟩, int_no u _ (by decide +kernel)⟩
      obtain ⟨n1, n2⟩ := unmarked_orNone hname
      have h1 := link_text (url ++ "/users/" ++ toString u).toList (verbatim name) hq n1
      rw [readText_plain ha, readText_plain n2, String.ofList_toList, ofList_verbatim] at h1
      have h2 := tagPiece_text "/a" (by decide +kernel) [] (by simp)
      exact h1.append h2

theorem by_text (x : Option String) (h : ∀ n, x = some n → Unmarked n) :
    '<' ∉ "Copyright ".toList ++ verbatim x ++ " by ".toList ∧
    String.ofList (readText ("Copyright ".toList ++ verbatim x ++ " by ".toList)) = "Copyright " ++ orNone x ++ " by " := by
  obtain ⟨n1, n2⟩ := unmarked_orNone h
  have ha : '&' ∉ "Copyright ".toList ++ verbatim x ++ " by ".toList := by
    simp only [List.mem_append, not_or]; exact ⟨⟨by decide +kernel, n2⟩, by decide +kernel⟩
  constructor
  · simp only [List.mem_append, not_or]; exact ⟨⟨by decide +kernel, n1⟩, by decide +kernel⟩
  · rw [readText_plain ha, String.ofList_append, String.ofList_append, ofList_verbatim, String.ofList_toList, String.ofList_toList]

theorem comment_whole (url : String) (hurl : Unmarked url ∧ '"' ∉ url.toList) (user : Option Int) (name text license : Option String)
    (hname : ∀ n, name = some n → Unmarked n) (hl : ∀ n, license = some n → Unmarked n) :
    Whole (commentHtml ⟨url, user, name, text, license⟩)
      ([⟨"li", [], orNone text⟩, ⟨"small", [], "Copyright " ++ orNone license ++ " by "⟩] ++ personNodes url user name ++
        [⟨"/small", [], ""⟩, ⟨"/li", [], ""⟩]) := by
  have e1 : commentHtml ⟨url, user, name, text, license⟩ =
      tagPiece "li".toList (escaped text) ++ (tagPiece "small".toList ("Copyright ".toList ++ verbatim license ++ " by ".toList) ++
        (personHtml url user name ++ (tagPiece "/small".toList [] ++ tagPiece "/li".toList []))) := by
    unfold commentHtml tagPiece lit
    simp only [List.append_assoc, List.cons_append, List.nil_append]
    rfl
  rw [e1]
  have h1 := tagPiece_text "li" (by decide +kernel) (escaped text) (escaped_no_tag text)
  rw [Pages.readText_escaped] at h1
  obtain ⟨b1, b2⟩ := by_text license hl
  have h2 := tagPiece_text "small" (by decide +kernel) _ b1
  rw [b2] at h2
  have h3 := person_whole url hurl user name hname
  have h4 := tagPiece_tag "/small" (by decide +kernel)
  have h5 := tagPiece_tag "/li" (by decide +kernel)
  have := h1.append (h2.append (h3.append (h4.append h5)))
  simpa using this

set_option maxRecDepth 20000 in
/-- The page of a post whose fields are the data of the dump. -/
theorem post_read {d : Dump} {url : String} {r : PostRow} {fs : SX.Base × List String × List SX.CommentView}
    (hf : FieldsShow d url r fs) (hu : Unmarking d url r) (order : List String → List String) (ho : ∀ l, (order l).Perm l) :
    Finished (postHtml order fs) ∧ nodes (postHtml order fs) = postNodes d url r (order (tagsIn d (r.parent.or r.id))) := by
  obtain ⟨⟨site, url', id, tagPost, owner, name, license, kind, body, parent, question, link⟩, tags, comments⟩ := fs
  obtain ⟨h1, h2, h3, h4, h5, h6, h7, -, h8, h9, h10, h11⟩ := hf
  simp only at h1 h2 h3 h4 h5 h6 h7 h8 h9 h10 h11
  subst h1 h2 h3 h4 h5 h7 h8 h9 h10 h11
  have e1 : postHtml order ⟨⟨site, url', r.id, tagPost, r.owner, userIn d r.owner, r.license, kind, r.body, parent, questionIn d r,
        r.id.map (fun i => url' ++ "/questions/" ++ toString i)⟩, tagsIn d (r.parent.or r.id),
        (d.comments.rows.filter (fun c => c.post = r.id)).map (fun c => ⟨url', c.user, userIn d c.user, c.text, c.license⟩)⟩ =
      tagPiece "details".toList [] ++ (tagPiece "summary".toList [] ++ (tagPiece "em".toList (escaped (questionIn d r)) ++
      (tagPiece "/em".toList (" - ".toList ++ kind.toList ++ " from ".toList ++ url'.toList) ++ (tagPiece "/summary".toList [] ++
      (tagPiece "p".toList [] ++ (tagPiece "small".toList [] ++
      (linkPiece (verbatim (r.id.map (fun i => url' ++ "/questions/" ++ toString i))) "Live Link".toList ++
      (tagPiece "/a".toList ("Copyright ".toList ++ verbatim r.license ++ " by ".toList) ++
      (personHtml url' r.owner (userIn d r.owner) ++ (tagPiece "/small".toList [] ++ (tagPiece "/p".toList (verbatim r.body) ++
      (tagPiece "details".toList [] ++ (tagPiece "summary".toList "Tags:".toList ++ (tagPiece "/summary".toList [] ++ (tagPiece "ul".toList [] ++
      ((order (tagsIn d (r.parent.or r.id))).flatMap (fun t => tagPiece "li".toList t.toList) ++
      (tagPiece "/ul".toList [] ++ (tagPiece "/details".toList [] ++ (tagPiece "details".toList [] ++ (tagPiece "summary".toList "Comments:".toList ++
      (tagPiece "/summary".toList [] ++ (tagPiece "ul".toList [] ++
      ((d.comments.rows.filter (fun c => c.post = r.id)).flatMap
        (fun c => commentHtml ⟨url', c.user, userIn d c.user, c.text, c.license⟩) ++
      (tagPiece "/ul".toList [] ++ (tagPiece "/details".toList [] ++ tagPiece "/details".toList []))))))))))))))))))))))))) := by
    unfold postHtml tagPiece linkPiece lit
    simp only [List.append_assoc, List.cons_append, List.nil_append, List.flatMap_map]
    rfl
  rw [e1]
  have t : ∀ n : String, (∀ c ∈ n.toList, c ≠ '>' ∧ isSpace c = false) → Whole (tagPiece n.toList []) [⟨n, [], ""⟩] := tagPiece_tag
  have w1 := tagPiece_text "em" (by decide +kernel) _ (escaped_no_tag (questionIn d r))
  rw [Pages.readText_escaped] at w1
  have hkind : Unmarked kind := by rw [h6]; split_ifs <;> exact ⟨by decide +kernel, by decide +kernel⟩
  have w2 : Whole (tagPiece "/em".toList (" - ".toList ++ kind.toList ++ " from ".toList ++ url'.toList))
      [⟨"/em", [], " - " ++ kind ++ " from " ++ url'⟩] := by
    have := tagPiece_static "/em" (" - " ++ kind ++ " from " ++ url') (by decide +kernel) (by
      simp only [String.toList_append, List.mem_append, not_or]
      exact ⟨⟨⟨⟨by decide +kernel, hkind.1⟩, by decide +kernel⟩, hu.url.1.1⟩, ⟨⟨⟨by decide +kernel, hkind.2⟩, by decide +kernel⟩, hu.url.1.2⟩⟩)
    simpa only [String.toList_append] using this
  have hlink : '"' ∉ verbatim (r.id.map (fun i => url' ++ "/questions/" ++ toString i)) ∧
      '&' ∉ verbatim (r.id.map (fun i => url' ++ "/questions/" ++ toString i)) := by
    cases r.id with
    | none => exact ⟨by show '"' ∉ "None".toList; decide +kernel, by show '&' ∉ "None".toList; decide +kernel⟩
    | some i =>
      simp only [verbatim, Option.map_some, Option.getD_some, String.toList_append, List.mem_append, not_or]
      exact ⟨⟨⟨hu.url.2, by decide +kernel⟩, int_no i _ (by decide +kernel)⟩, ⟨⟨hu.url.1.2, by decide +kernel⟩, int_no i _ (by decide +kernel)⟩⟩
  have w3 := link_text _ "Live Link".toList hlink.1 (by decide +kernel)
  rw [readText_plain hlink.2, ofList_verbatim, readText_plain (by decide +kernel), String.ofList_toList] at w3
  obtain ⟨b1, b2⟩ := by_text r.license hu.license
  have w4 := tagPiece_text "/a" (by decide +kernel) _ b1
  rw [b2] at w4
  have w5 := person_whole url' hu.url r.owner (userIn d r.owner) hu.name
  have hb : Finished (verbatim r.body) := by
    cases hr : r.body with
    | none => exact (finished_text (y := "None".toList) (by decide +kernel)).1
    | some b => exact hu.body b hr
  have w6 := tagPiece_whole "/p".toList (by decide +kernel) _ hb
  have w7 := whole_flatMap (order (tagsIn d (r.parent.or r.id))) (fun t => tagPiece "li".toList t.toList) (fun t => [⟨"li", [], t⟩])
    (fun t ht => tagPiece_static "li" t (by decide +kernel) (hu.tags t ((ho _).mem_iff.1 ht)))
  have w8 := whole_flatMap (d.comments.rows.filter (fun c => c.post = r.id))
    (fun c => commentHtml ⟨url', c.user, userIn d c.user, c.text, c.license⟩) (commentNodes d url')
    (fun c hc => by
      obtain ⟨c1, c2⟩ := List.mem_filter.1 hc
      obtain ⟨c3, c4⟩ := hu.comments c c1 (by simpa using c2)
      exact comment_whole url' hu.url c.user (userIn d c.user) c.text c.license c3 c4)
  have hm : (order (tagsIn d (r.parent.or r.id))).flatMap (fun t => [(⟨"li", [], t⟩ : Node)]) =
      (order (tagsIn d (r.parent.or r.id))).map (fun t => ⟨"li", [], t⟩) := by
    generalize order (tagsIn d (r.parent.or r.id)) = l
    induction l with
    | nil => rfl
    | cons a l ih => rw [List.flatMap_cons, ih]; rfl
  rw [hm] at w7
  have all := (t "details" (by decide +kernel)).append <| (t "summary" (by decide +kernel)).append <| w1.append <| w2.append <|
    (t "/summary" (by decide +kernel)).append <| (t "p" (by decide +kernel)).append <| (t "small" (by decide +kernel)).append <|
    w3.append <| w4.append <| w5.append <| (t "/small" (by decide +kernel)).append <| w6.append <| (t "details" (by decide +kernel)).append <|
    (tagPiece_static "summary" "Tags:" (by decide +kernel) (by decide +kernel)).append <| (t "/summary" (by decide +kernel)).append <|
    (t "ul" (by decide +kernel)).append <| w7.append <| (t "/ul" (by decide +kernel)).append <| (t "/details" (by decide +kernel)).append <|
    (t "details" (by decide +kernel)).append <| (tagPiece_static "summary" "Comments:" (by decide +kernel) (by decide +kernel)).append <|
    (t "/summary" (by decide +kernel)).append <| (t "ul" (by decide +kernel)).append <| w8.append <| (t "/ul" (by decide +kernel)).append <|
    (t "/details" (by decide +kernel)).append (t "/details" (by decide +kernel))
  refine ⟨(all start ⟨rfl, rfl, rfl⟩).1.1, ?_⟩
  rw [all.nodes, h6, String.ofList_toList]
  unfold postNodes
  have hv : verbatim r.body = (orNone r.body).toList := rfl
  simp only [hv, List.append_assoc, List.cons_append, List.nil_append, List.singleton_append]

/-- **C63, HTML.** After the import of a tidy dump into an empty corpus, `render_docs_html` returns one page for each of the
given keys, in order.  A browser reads in it exactly the data of the post the key stands for: the title of its question, kind, site,
link, license and author, the body as it is, the tags of its question and its comments, unless a name, license or tag contains
`<` or `&`.  The call changes nothing, and nothing is left open. -/
theorem rendered_html_shows_dump (fault : Nat → Option Err) (d : Dump) (url : String) (c : Conn Db) (hc : Idle c {}) (hd : Tidy d)
    (hr : (addSiteData fault d url c).2 = .ok ()) (order : List String → List String) (ho : ∀ l, (order l).Perm l)
    (keys : List Nat) (hk : ∀ k ∈ keys, 1 ≤ k ∧ k ≤ (considered d).length) :
    ∃ new pages, Idle (addSiteData fault d url c).1 new ∧
      (SX.renderHtml order keys (addSiteData fault d url c).1).2 = .ok pages ∧
      Idle (SX.renderHtml order keys (addSiteData fault d url c).1).1 new ∧
      List.Forall₂ (fun k page => page.1 = k ∧ ∃ r, (considered d)[k - 1]? = some r ∧ (Unmarking d url r →
        ∃ tags, tags.Perm (tagsIn d (r.parent.or r.id)) ∧ nodes page.2 = postNodes d url r tags)) keys pages := by
  have hend := SX.addSiteData_end fault d url c {} hc
  generalize addSiteData fault d url c = res at hr hend ⊢
  cases hend with
  | failed c' e log h1 h2 h3 h4 h5 => cases hr
  | done c' log h1 h2 h3 h4 =>
  have hput : SX.putSite url {} = { sites := [⟨1, url⟩] } := rfl
  have hsite : SX.siteOf url {} = 1 := by simp [SX.siteOf, hput, SX.siteId]
  rw [hput, hsite] at h1
  have hall : ∀ k : Nat, ∃ fs, k ∈ keys → ∃ r, (considered d)[k - 1]? = some r ∧
      SX.renderedFields (SX.imported 1 d { sites := [⟨1, url⟩] }) k = .ok fs ∧ FieldsShow d url r fs := by
    intro k
    by_cases hkm : k ∈ keys
    · obtain ⟨a, b⟩ := hk k hkm
      have hlt : k - 1 < (considered d).length := by omega
      obtain ⟨fs, e1, e2⟩ := fresh_fields d url hd (k - 1) _ (List.getElem?_eq_getElem hlt)
      rw [Nat.sub_add_cancel a] at e1
      exact ⟨fs, fun _ => ⟨_, List.getElem?_eq_getElem hlt, e1, e2⟩⟩
    · exact ⟨(⟨0, "", none, none, none, none, none, "", none, none, none, none⟩, [], []), fun h => absurd h hkm⟩
  choose g hg using hall
  obtain ⟨r1, r2, -⟩ := renderDocs_ok "render_docs_html" (SX.postHtml order) keys c' _ h1 g
    (fun k hkm => by obtain ⟨_, _, e, _⟩ := hg k hkm; exact e)
  refine ⟨_, _, h1, r1, r2, ?_⟩
  rw [List.forall₂_map_right_iff, List.forall₂_same]
  intro k hkm
  obtain ⟨r, a, _, b⟩ := hg k hkm
  exact ⟨rfl, r, a, fun hu => ⟨_, ho _, (post_read b hu order ho).2⟩⟩

/-- The data of the demo dump has no such characters. -/
theorem sampleDump_unmarking (url : String) (hurl : Unmarked url ∧ '"' ∉ url.toList) : ∀ r ∈ considered sampleDump, Unmarking sampleDump url r := by
  intro r hr
  have hu : ∀ (u : Option Int) n, userIn sampleDump u = some n → Unmarked n := by
    intro u n h
    cases u with
    | none => cases h
    | some u =>
      by_cases hu : u = 1
      · subst hu
        have : n = "ann" := by
          have : userIn sampleDump (some 1) = some "ann" := by decide +kernel
          rw [this] at h; exact (Option.some.inj h).symm
        subst this
        exact ⟨by decide +kernel, by decide +kernel⟩
      · have : userIn sampleDump (some u) = none := by
          simp [userIn, sampleDump, Ne.symm hu]
        rw [this] at h; cases h
  have hr' : r = { typeId := some "1", id := some 5, owner := some 1, title := some "T", created := some "2020-01-01", tags := some "<a><b>" } ∨
      r = { typeId := some "2", id := some 7, parent := some 5, body := some "B", created := some "2020-01-02" } := by
    have : considered sampleDump = [{ typeId := some "1", id := some 5, owner := some 1, title := some "T", created := some "2020-01-01", tags := some "<a><b>" },
      { typeId := some "2", id := some 7, parent := some 5, body := some "B", created := some "2020-01-02" }] := by rfl
    rw [this] at hr
    simpa using hr
  have ht : ∀ t ∈ tagsIn sampleDump (some 5), Unmarked t := by
    have : tagsIn sampleDump (some 5) = ["a", "b"] := by decide +kernel
    rw [this]
    intro t ht
    simp only [List.mem_cons, List.not_mem_nil, or_false] at ht
    rcases ht with rfl | rfl <;> exact ⟨by decide +kernel, by decide +kernel⟩
  refine ⟨hurl, fun n => hu _ n, ?_, ?_, ?_, ?_⟩
  · rcases hr' with rfl | rfl <;> intro l h <;> cases h
  · rcases hr' with rfl | rfl
    · intro l h; cases h
    · intro l h
      cases h
      exact (finished_text (y := "B".toList) (by decide +kernel)).1
  · rcases hr' with rfl | rfl <;> exact ht
  · intro c hc _
    refine ⟨fun n => hu _ n, ?_⟩
    have : c = { id := some 1, post := some 7, user := some 1, text := some "c" } := by simpa [sampleDump] using hc
    subst this
    intro l h; cases h

example : ∃ new pages, Idle (addSiteData (fun _ => none) sampleDump "https://x.com" (Conn.fresh {})).1 new ∧
    (SX.renderHtml id [2, 1] (addSiteData (fun _ => none) sampleDump "https://x.com" (Conn.fresh {})).1).2 = .ok pages ∧
    Idle (SX.renderHtml id [2, 1] (addSiteData (fun _ => none) sampleDump "https://x.com" (Conn.fresh {})).1).1 new ∧
    List.Forall₂ (fun k page => page.1 = k ∧ ∃ r, (considered sampleDump)[k - 1]? = some r ∧
      (Unmarking sampleDump "https://x.com" r → ∃ tags, tags.Perm (tagsIn sampleDump (r.parent.or r.id)) ∧
        nodes page.2 = postNodes sampleDump "https://x.com" r tags)) [2, 1] pages :=
  rendered_html_shows_dump (fun _ => none) sampleDump "https://x.com" (Conn.fresh {}) ⟨rfl, rfl, rfl, rfl, rfl, rfl⟩ sampleDump_tidy rfl id
    (fun l => List.Perm.refl l) [2, 1] (by decide +kernel)

/-- The answer of the demo dump: the question's title and tags, nobody as author, and the comment of ann. -/
example : postNodes sampleDump "https://x.com" { typeId := some "2", id := some 7, parent := some 5, body := some "B", created := some "2020-01-02" } ["a", "b"] =
    [⟨"", [], ""⟩, ⟨"details", [], ""⟩, ⟨"summary", [], ""⟩, ⟨"em", [], "T"⟩, ⟨"/em", [], " - Answer from https://x.com"⟩, ⟨"/summary", [], ""⟩,
     ⟨"p", [], ""⟩, ⟨"small", [], ""⟩, ⟨"a", [("href", "https://x.com/questions/7")], "Live Link"⟩, ⟨"/a", [], "Copyright None by "⟩,
     ⟨"Deleted", [("User", "")], ""⟩, ⟨"/small", [], ""⟩, ⟨"/p", [], "B"⟩, ⟨"details", [], ""⟩, ⟨"summary", [], "Tags:"⟩, ⟨"/summary", [], ""⟩,
     ⟨"ul", [], ""⟩, ⟨"li", [], "a"⟩, ⟨"li", [], "b"⟩, ⟨"/ul", [], ""⟩, ⟨"/details", [], ""⟩, ⟨"details", [], ""⟩, ⟨"summary", [], "Comments:"⟩,
     ⟨"/summary", [], ""⟩, ⟨"ul", [], ""⟩, ⟨"li", [], "c"⟩, ⟨"small", [], "Copyright None by "⟩,
     ⟨"a", [("href", "https://x.com/users/1")], "ann"⟩, ⟨"/a", [], ""⟩, ⟨"/small", [], ""⟩, ⟨"/li", [], ""⟩, ⟨"/ul", [], ""⟩, ⟨"/details", [], ""⟩,
     ⟨"/details", [], ""⟩] := by decide +kernel

end Hyperreal.Props
