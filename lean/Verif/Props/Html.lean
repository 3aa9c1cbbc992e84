import Verif.Spec.Html
import Verif.Props.SxRender

/-!
# Properties of rendered HTML (C64)
-/

namespace Hyperreal.Props
open Spec Html
open SX (lit escapeChar escaped verbatim Base CommentView postHtml commentHtml personHtml)

theorem escapeChar_plain (c : Char) : Plain (escapeChar c) := by
  unfold escapeChar
  split_ifs
  · exact ⟨by decide, by decide⟩
  · exact ⟨by decide, by decide⟩
  · exact ⟨by decide, by decide⟩
  · exact ⟨by decide, by decide⟩
  · exact ⟨by decide, by decide⟩
  · next h1 h2 h3 h4 h5 => exact ⟨by simpa using fun h => h2 h.symm, by simpa using fun h => h3 h.symm⟩

theorem escaped_plain (x : Option String) : Plain (escaped x) := by
  unfold escaped
  constructor
  · intro h
    obtain ⟨c, -, hc⟩ := List.mem_flatMap.1 h
    exact (escapeChar_plain c).1 hc
  · intro h
    obtain ⟨c, -, hc⟩ := List.mem_flatMap.1 h
    exact (escapeChar_plain c).2 hc

theorem readText_escaped (s : List Char) : readText (s.flatMap escapeChar) = s := by
  induction s with
  | nil => simp [readText]
  | cons c s ih =>
    rw [List.flatMap_cons]
    generalize s.flatMap escapeChar = x at ih ⊢
    unfold escapeChar
    split_ifs with h1 h2 h3 h4 h5
    · subst h1; show readText ('&' :: 'a' :: 'm' :: 'p' :: ';' :: x) = _; rw [readText, ih]
    · subst h2; show readText ('&' :: 'l' :: 't' :: ';' :: x) = _; rw [readText, ih]
    · subst h3; show readText ('&' :: 'g' :: 't' :: ';' :: x) = _; rw [readText, ih]
    · subst h4; show readText ('&' :: '#' :: '3' :: '9' :: ';' :: x) = _; rw [readText, ih]
    · subst h5; show readText ('&' :: '#' :: '3' :: '4' :: ';' :: x) = _; rw [readText, ih]
    · show readText (c :: x) = _
      rw [readText.eq_6, ih]
      all_goals intros; simp_all

/-! ## Markup -/

theorem markup_plain {s : List Char} (h : Plain s) (rest : List Char) : markup none (s ++ rest) = markup none rest := by
  induction s with
  | nil => rfl
  | cons c s ih =>
    have hc : c ≠ '<' := fun e => h.1 (by simp [e])
    rw [List.cons_append, markup, if_neg hc]
    exact ih ⟨fun hm => h.1 (by simp [hm]), fun hm => h.2 (by simp [hm])⟩

theorem plain_closed {s : List Char} (h : Plain s) : Closed s := by
  intro rest
  have := markup_plain h []
  rw [List.append_nil] at this
  rw [markup_plain h, this]
  rfl

theorem closed_append {a b : List Char} (ha : Closed a) (hb : Closed b) : Closed (a ++ b) := by
  intro rest
  rw [List.append_assoc, ha, hb, ha b, List.append_assoc]

theorem closed_flatMap {α : Type} (f : α → List Char) (l : List α) (h : ∀ x ∈ l, Closed (f x)) : Closed (l.flatMap f) := by
  induction l with
  | nil => intro rest; rfl
  | cons x l ih =>
    rw [List.flatMap_cons]
    exact closed_append (h x (by simp)) (ih (fun y hy => h y (by simp [hy])))

/-- A closed text as computed: no tag is open at the end. -/
def openAt : Bool → List Char → Bool
  | b, [] => b
  | false, c :: cs => openAt (c = '<') cs
  | true, c :: cs => openAt (c ≠ '>') cs

theorem markup_append (s rest : List Char) : ∀ t : Option (List Char), openAt t.isSome s = false →
    markup t (s ++ rest) = markup t s ++ markup none rest := by
  induction s with
  | nil =>
    intro t h
    cases t with
    | none => rfl
    | some t => cases h
  | cons c s ih =>
    intro t h
    cases t with
    | none =>
      rw [List.cons_append, markup, markup]
      by_cases hc : c = '<'
      · rw [if_pos hc, if_pos hc]; exact ih _ (by simpa [openAt, hc] using h)
      · rw [if_neg hc, if_neg hc]; exact ih _ (by simpa [openAt, hc] using h)
    | some t =>
      rw [List.cons_append, markup, markup]
      by_cases hc : c = '>'
      · rw [if_pos hc, if_pos hc, ih _ (by simpa [openAt, hc] using h)]; rfl
      · rw [if_neg hc, if_neg hc]; exact ih _ (by simpa [openAt, hc] using h)

theorem closed_of (s : List Char) (h : openAt false s = false) : Closed s := fun rest => markup_append s rest none h

theorem openAt_append (b : Bool) (s t : List Char) : openAt b (s ++ t) = openAt (openAt b s) t := by
  induction s generalizing b with
  | nil => cases t <;> cases b <;> rfl
  | cons c s ih => cases b <;> exact ih _

theorem openAt_plain (b : Bool) {s : List Char} (h : Plain s) : openAt b s = b := by
  induction s generalizing b with
  | nil => rfl
  | cons c s ih =>
    have h1 : c ≠ '<' := fun e => h.1 (by simp [e])
    have h2 : c ≠ '>' := fun e => h.2 (by simp [e])
    have hs : Plain s := ⟨fun hm => h.1 (by simp [hm]), fun hm => h.2 (by simp [hm])⟩
    cases b
    · simp only [openAt, h1, decide_false]; exact ih _ hs
    · simp only [openAt, ne_eq, h2, not_false_eq_true, decide_true]; exact ih _ hs

theorem markup_open (s : List Char) : ∀ t : Option (List Char), openAt t.isSome s = true →
    (markup t (s ++ ['>'])).length = (markup t s).length + 1 := by
  induction s with
  | nil =>
    intro t h
    cases t with
    | none => cases h
    | some t => rfl
  | cons c s ih =>
    intro t h
    cases t with
    | none =>
      rw [List.cons_append, markup, markup]
      by_cases hc : c = '<'
      · rw [if_pos hc, if_pos hc]; exact ih _ (by simpa [openAt, hc] using h)
      · rw [if_neg hc, if_neg hc]; exact ih _ (by simpa [openAt, hc] using h)
    | some t =>
      rw [List.cons_append, markup, markup]
      by_cases hc : c = '>'
      · rw [if_pos hc, if_pos hc, List.length_cons, List.length_cons, ih _ (by simpa [openAt, hc] using h)]
      · rw [if_neg hc, if_neg hc]; exact ih _ (by simpa [openAt, hc] using h)

theorem closed_iff (s : List Char) : Closed s ↔ openAt false s = false := by
  refine ⟨fun h => ?_, closed_of s⟩
  by_contra hn
  have := markup_open s none (by simpa using hn)
  rw [h] at this
  simp [markup] at this

theorem openAt_closed {s : List Char} (h : Closed s) : openAt false s = false := (closed_iff s).1 h

theorem int_plain (i : Int) : Plain (toString i).toList := by
  have hd : ∀ n : Nat, ∀ c ∈ (toString n).toList, c ≠ '<' ∧ c ≠ '>' := by
    intro n c hc
    have := Nat.isDigit_of_mem_toDigits (b := 10) (n := n) (by decide) (by decide) (c := c)
      (by simpa [Nat.repr] using hc)
    constructor
    · rintro rfl; simp [Char.isDigit] at this
    · rintro rfl; simp [Char.isDigit] at this
  cases i with
  | ofNat n => exact ⟨fun h => (hd n _ h).1 rfl, fun h => (hd n _ h).2 rfl⟩
  | negSucc n =>
    have e : (toString (Int.negSucc n)).toList = '-' :: (toString (n + 1)).toList := by
      show ("-" ++ toString (n + 1)).toList = _
      rw [String.toList_append]; rfl
    rw [e]
    constructor
    · intro h
      rcases List.mem_cons.1 h with h | h
      · revert h; decide
      · exact (hd _ _ h).1 rfl
    · intro h
      rcases List.mem_cons.1 h with h | h
      · revert h; decide
      · exact (hd _ _ h).2 rfl

theorem person_closed (url : String) (user : Option Int) (name : Option String) (hu : Plain url.toList) (hn : Closed (verbatim name)) :
    Closed (personHtml url user name) := by
  have hdel : Closed (lit "<Deleted User>") := closed_of _ (by decide +kernel)
  unfold personHtml
  cases user with
  | none => exact hdel
  | some u =>
    dsimp only
    split
    · exact hdel
    · apply closed_of
      simp only [openAt_append]
      rw [show openAt false (lit "<a href=\"") = true by decide +kernel, openAt_plain _ hu,
        show openAt true (lit "/users/") = true by decide +kernel, openAt_plain _ (int_plain u),
        show openAt true (lit "\">") = false by decide +kernel, openAt_closed hn]
      decide +kernel

/-- The template after the title, up to the comments. -/
def middle (order : List String → List String) (r : Base × List String × List CommentView) : List Char :=
  (lit "</em> - ") ++ r.1.kind.toList ++ (lit " from ") ++
    r.1.url.toList ++ (lit "</summary><p><small><a href=\"") ++ verbatim r.1.link ++ (lit "\">Live Link</a>Copyright ") ++
    verbatim r.1.license ++ (lit " by ") ++ personHtml r.1.url r.1.owner r.1.name ++ (lit "</small></p>") ++
    verbatim r.1.body ++ (lit "<details><summary>Tags:</summary><ul>") ++
    (order r.2.1).flatMap (fun t => (lit "<li>") ++ t.toList) ++
    (lit "</ul></details><details><summary>Comments:</summary><ul>")

theorem postHtml_parts (order : List String → List String) (r : Base × List String × List CommentView) :
    postHtml order r = (lit "<details><summary><em>") ++ (escaped r.1.question ++ (middle order r ++
      (r.2.2.flatMap commentHtml ++ (lit "</ul></details></details>")))) := by
  simp only [postHtml, middle, List.append_assoc]

theorem middle_closed (order : List String → List String) (ho : ∀ l, (order l).Perm l)
    (r : Base × List String × List CommentView) (h : Unharmful r) : Closed (middle order r) := by
  have htags : Closed ((order r.2.1).flatMap (fun t => (lit "<li>") ++ t.toList)) := by
    apply closed_flatMap
    intro t ht
    exact closed_append (closed_of _ (by decide +kernel)) (h.tags t ((ho _).mem_iff.1 ht))
  unfold middle
  apply closed_of
  simp only [openAt_append]
  rw [show openAt false (lit "</em> - ") = false by decide +kernel, openAt_closed h.kind,
    show openAt false (lit " from ") = false by decide +kernel, openAt_plain _ h.url,
    show openAt false (lit "</summary><p><small><a href=\"") = true by decide +kernel, openAt_plain _ h.link,
    show openAt true (lit "\">Live Link</a>Copyright ") = false by decide +kernel, openAt_closed h.license,
    show openAt false (lit " by ") = false by decide +kernel, openAt_closed (person_closed _ _ _ h.url h.name),
    show openAt false (lit "</small></p>") = false by decide +kernel, openAt_closed h.body,
    show openAt false (lit "<details><summary>Tags:</summary><ul>") = false by decide +kernel, openAt_closed htags]
  decide +kernel

theorem comment_markup (c : CommentView) (hu : Plain c.url.toList) (hl : Closed (verbatim c.license)) (hn : Closed (verbatim c.name)) :
    Closed (commentHtml c) ∧ markup none (commentHtml c) = markup none (commentHtml { c with text := none }) := by
  have hp := person_closed c.url c.user c.name hu hn
  have e : ∀ c : CommentView, commentHtml c = (lit "<li>") ++ (escaped c.text ++ ((lit "<small>Copyright ") ++ verbatim c.license ++
      (lit " by ") ++ personHtml c.url c.user c.name ++ (lit "</small></li>"))) := by
    intro c; simp only [commentHtml, List.append_assoc]
  have hli : Closed (lit "<li>") := closed_of _ (by decide +kernel)
  constructor
  · rw [e]
    apply closed_of
    simp only [openAt_append]
    rw [show openAt false (lit "<li>") = false by decide +kernel, openAt_plain _ (escaped_plain c.text),
      show openAt false (lit "<small>Copyright ") = false by decide +kernel, openAt_closed hl,
      show openAt false (lit " by ") = false by decide +kernel, openAt_closed hp]
    decide +kernel
  · rw [e, e, hli, hli, markup_plain (escaped_plain _), markup_plain (escaped_plain _)]

/-- **C64 (partial: titles and comments).** The title of the question and the texts of the comments are text: whatever
characters they have, the page has the same tags, provided that the rest of the post (which the template does not escape) has
no unfinished tags. -/
theorem titles_and_comments_are_text_partial (order : List String → List String) (ho : ∀ l, (order l).Perm l)
    (r r' : Base × List String × List CommentView) (hs : SameButTexts r r') (h : Unharmful r) :
    markup none (postHtml order r) = markup none (postHtml order r') := by
  obtain ⟨b, ts, cs⟩ := r
  obtain ⟨b', ts', cs'⟩ := r'
  obtain ⟨h1, h2, h3⟩ := hs
  dsimp only at h1 h2 h3
  subst h2
  obtain ⟨q', rfl⟩ : ∃ q', b' = { b with question := q' } := by
    refine ⟨b'.question, ?_⟩
    cases b; cases b'
    simp only [Base.mk.injEq] at h1 ⊢
    tauto
  have hmid : middle order (b, ts, cs) = middle order ({ b with question := q' }, ts, cs') := rfl
  have hlead : Closed (lit "<details><summary><em>") := closed_of _ (by decide +kernel)
  have hm := middle_closed order ho _ h
  have hcs : Closed (cs.flatMap commentHtml) := closed_flatMap _ _ (fun c hc => by
    obtain ⟨a, b, d⟩ := h.comments c hc
    exact (comment_markup c a b d).1)
  have hcs' : ∀ c ∈ cs', Plain c.url.toList ∧ Closed (verbatim c.license) ∧ Closed (verbatim c.name) := by
    intro c hc
    have : ({ c with text := none } : CommentView) ∈ cs.map (fun c => { c with text := none }) := by
      rw [h3]; exact List.mem_map.2 ⟨c, hc, rfl⟩
    obtain ⟨c0, hc0, e⟩ := List.mem_map.1 this
    simp only [CommentView.mk.injEq] at e
    obtain ⟨e1, e2, e3, -, e5⟩ := e
    rw [← e1, ← e3, ← e5]
    exact h.comments c0 hc0
  have hcc : Closed (cs'.flatMap commentHtml) := closed_flatMap _ _ (fun c hc => by
    obtain ⟨a, b, d⟩ := hcs' c hc
    exact (comment_markup c a b d).1)
  have hlist : ∀ l : List CommentView, (∀ c ∈ l, Plain c.url.toList ∧ Closed (verbatim c.license) ∧ Closed (verbatim c.name)) →
      markup none (l.flatMap commentHtml) = (l.map (fun c => { c with text := none })).flatMap (fun c => markup none (commentHtml c)) := by
    intro l
    induction l with
    | nil => intro _; rfl
    | cons c l ih =>
      intro hl
      obtain ⟨a, b, d⟩ := hl c (by simp)
      rw [List.flatMap_cons, (comment_markup c a b d).1, (comment_markup c a b d).2, ih (fun x hx => hl x (by simp [hx])),
        List.map_cons, List.flatMap_cons]
  rw [postHtml_parts, postHtml_parts, hlead, hlead, markup_plain (escaped_plain _), markup_plain (escaped_plain _), ← hmid, hm, hm]
  dsimp only
  rw [hcs, hcc, hlist cs h.comments, hlist cs' hcs', h3]

/-- **C64, what is read.** The title is read back exactly as it is. -/
theorem title_is_read (order : List String → List String) (r : Base × List String × List CommentView) (t : String)
    (h : r.1.question = some t) :
    ∃ before shown after, postHtml order r = before ++ shown ++ after ∧ Plain shown ∧ readText shown = t.toList := by
  refine ⟨(lit "<details><summary><em>"), escaped (some t), middle order r ++
      (r.2.2.flatMap commentHtml ++ (lit "</ul></details></details>")), ?_, escaped_plain _, readText_escaped _⟩
  rw [postHtml_parts, h, List.append_assoc]

/-- **C64, plain text corpora.** In a page the documents of a plain text corpus are text: the tags of the list of documents
are those of the page, whatever the documents contain, and each is read back exactly. -/
theorem plain_documents_are_text (docs : List String) :
    markup none (docList (docs.map .text)) =
      "ul class=\"doc-list\"".toList :: docs.flatMap (fun _ => ["li".toList, "/li".toList]) ++ ["/ul".toList] ∧
    ∀ s ∈ docs, ∃ shown, item (.text s) = (lit "<li>") ++ shown ++ (lit "</li>") ∧ readText shown = s.toList := by
  constructor
  · have hitem : ∀ s : String, Closed (item (.text s)) ∧ markup none (item (.text s)) = ["li".toList, "/li".toList] := by
      intro s
      have hli : Closed (lit "<li>") := closed_of _ (by decide +kernel)
      constructor
      · apply closed_of
        simp only [item, openAt_append]
        rw [show openAt false (lit "<li>") = false by decide +kernel, openAt_plain _ (escaped_plain _)]
        decide +kernel
      · rw [item, List.append_assoc, hli, markup_plain (escaped_plain _)]
        decide +kernel
    have hul : Closed (lit "<ul class=\"doc-list\">") := closed_of _ (by decide +kernel)
    have hlist : ∀ l : List String, markup none ((l.map Doc.text).flatMap item) = l.flatMap (fun _ => ["li".toList, "/li".toList]) := by
      intro l
      induction l with
      | nil => rfl
      | cons s l ih => rw [List.map_cons, List.flatMap_cons, (hitem s).1, (hitem s).2, ih, List.flatMap_cons]
    have hc : Closed ((docs.map Doc.text).flatMap item) := closed_flatMap _ _ (by
      intro x hx
      obtain ⟨s, -, rfl⟩ := List.mem_map.1 hx
      exact (hitem s).1)
    rw [docList, List.append_assoc, hul, hc, hlist,
      show markup none (lit "<ul class=\"doc-list\">") = ["ul class=\"doc-list\"".toList] by decide +kernel,
      show markup none (lit "</ul>") = ["/ul".toList] by decide +kernel]
    simp
  · intro s _
    exact ⟨_, rfl, readText_escaped _⟩

/-- **C64, refuted for names.** The name of an author is put into the page as it is: an author can choose a name that is a
script, which runs for whoever looks at the post. -/
theorem names_are_not_text (order : List String → List String) (r : Base × List String × List CommentView) (u : Int) (hu : u ≠ 0)
    (ho : r.1.owner = some u) (n : String) (hn : r.1.name = some n) :
    ∃ before after, postHtml order r = before ++ n.toList ++ after := by
  have hp : ∃ a b, personHtml r.1.url r.1.owner r.1.name = a ++ n.toList ++ b := by
    rw [ho, hn]
    refine ⟨(lit "<a href=\"") ++ r.1.url.toList ++ (lit "/users/") ++ (toString u).toList ++ (lit "\">"), (lit "</a>"), ?_⟩
    simp only [personHtml, if_neg hu, verbatim, Option.getD_some, List.append_assoc]
  obtain ⟨a, b, e⟩ := hp
  refine ⟨(lit "<details><summary><em>") ++ escaped r.1.question ++ (lit "</em> - ") ++ r.1.kind.toList ++ (lit " from ") ++
    r.1.url.toList ++ (lit "</summary><p><small><a href=\"") ++ verbatim r.1.link ++ (lit "\">Live Link</a>Copyright ") ++
    verbatim r.1.license ++ (lit " by ") ++ a,
    b ++ (lit "</small></p>" ++ (verbatim r.1.body ++ (lit "<details><summary>Tags:</summary><ul>" ++
    ((order r.2.1).flatMap (fun t => lit "<li>" ++ t.toList) ++
    (lit "</ul></details><details><summary>Comments:</summary><ul>" ++ (r.2.2.flatMap commentHtml ++
    lit "</ul></details></details>")))))), ?_⟩
  rw [postHtml, e]
  simp only [List.append_assoc]

/-- The same post twice; one author is called like a tag. -/
def namedPost (name : String) : Base × List String × List CommentView :=
  (⟨1, "site", some 5, some 5, some 1, some name, none, "Question", some "<p>B</p>", none, some "T", some "site/questions/5"⟩, ["a"],
    [⟨"site", some 1, some "bob", some "c", none⟩])

/-- The markup depends on the name. -/
theorem name_changes_markup : markup none (postHtml id (namedPost "ann")) ≠ markup none (postHtml id (namedPost "<script>")) := by
  decide +kernel

/-- **C64, refuted for tweets.** The display name of a user goes into the page as it is. -/
theorem tweet_name_changes_markup : ∃ t t' : Html.Tweet, { t with name := "" } = { t' with name := "" } ∧
    markup none (tweetHtml t) ≠ markup none (tweetHtml t') :=
  ⟨⟨"i", "u", "Ann", "1", "2020", "x", "0", "0", "0", "0", "2021"⟩, ⟨"i", "u", "<script>", "1", "2020", "x", "0", "0", "0", "0", "2021"⟩, rfl,
    by decide +kernel⟩

/-- **C64, refuted for tweets.** So does the text of a tweet. -/
theorem tweet_text_changes_markup : ∃ t t' : Html.Tweet, { t with text := "" } = { t' with text := "" } ∧
    markup none (tweetHtml t) ≠ markup none (tweetHtml t') :=
  ⟨⟨"i", "u", "Ann", "1", "2020", "x", "0", "0", "0", "0", "2021"⟩, ⟨"i", "u", "Ann", "1", "2020", "<script>", "0", "0", "0", "0", "2021"⟩, rfl,
    by decide +kernel⟩

/-- **C64, markup.** Documents that are markup already (StackExchange posts, tweets) are shown as that markup: the page has
exactly their tags inside the items of the list.  So what the templates of the corpora do not escape, nothing escapes. -/
theorem markup_documents_shown (docs : List (List Char)) (h : ∀ s ∈ docs, Closed s) :
    markup none (docList (docs.map .markup)) =
      "ul class=\"doc-list\"".toList :: docs.flatMap (fun s => "li".toList :: markup none s ++ ["/li".toList]) ++ ["/ul".toList] := by
  have hli : Closed (lit "<li>") := closed_of _ (by decide +kernel)
  have hitem : ∀ s ∈ docs, Closed (item (.markup s)) ∧ markup none (item (.markup s)) = "li".toList :: markup none s ++ ["/li".toList] := by
    intro s hs
    constructor
    · exact closed_append (closed_append hli (h s hs)) (closed_of _ (by decide +kernel))
    · rw [item, List.append_assoc, hli, h s hs, show markup none (lit "<li>") = ["li".toList] by decide +kernel,
        show markup none (lit "</li>") = ["/li".toList] by decide +kernel]
      rfl
  have hul : Closed (lit "<ul class=\"doc-list\">") := closed_of _ (by decide +kernel)
  have hlist : ∀ l : List (List Char), (∀ s ∈ l, s ∈ docs) →
      markup none ((l.map Doc.markup).flatMap item) = l.flatMap (fun s => "li".toList :: markup none s ++ ["/li".toList]) := by
    intro l
    induction l with
    | nil => intro _; rfl
    | cons s l ih =>
      intro hl
      obtain ⟨a, b⟩ := hitem s (hl s (by simp))
      rw [List.map_cons, List.flatMap_cons, a, b, ih (fun x hx => hl x (by simp [hx])), List.flatMap_cons]
  have hc : Closed ((docs.map Doc.markup).flatMap item) := closed_flatMap _ _ (by
    intro x hx
    obtain ⟨s, hs, rfl⟩ := List.mem_map.1 hx
    exact (hitem s hs).1)
  rw [docList, List.append_assoc, hul, hc, hlist docs (fun _ h => h),
    show markup none (lit "<ul class=\"doc-list\">") = ["ul class=\"doc-list\"".toList] by decide +kernel,
    show markup none (lit "</ul>") = ["/ul".toList] by decide +kernel]
  simp

example : Closed (lit "<p>B</p>") := closed_of _ (by decide +kernel)

/-! ## Examples -/

theorem namedPost_unharmful : Unharmful (namedPost "ann") where
  url := ⟨by decide +kernel, by decide +kernel⟩
  kind := closed_of _ (by decide +kernel)
  license := closed_of _ (by decide +kernel)
  name := closed_of _ (by decide +kernel)
  body := closed_of _ (by decide +kernel)
  link := ⟨by decide +kernel, by decide +kernel⟩
  tags := by
    intro t ht
    have : t = "a" := by simpa [namedPost] using ht
    subst this
    exact closed_of _ (by decide +kernel)
  comments := by
    intro c hc
    have : c = ⟨"site", some 1, some "bob", some "c", none⟩ := by simpa [namedPost] using hc
    subst this
    exact ⟨⟨by decide +kernel, by decide +kernel⟩, closed_of _ (by decide +kernel), closed_of _ (by decide +kernel)⟩

/-- Other texts, the same tags. -/
example : markup none (postHtml id (namedPost "ann")) =
    markup none (postHtml id ({ (namedPost "ann").1 with question := some "<script>" }, ["a"],
      [⟨"site", some 1, some "bob", some "</li><b>", none⟩])) :=
  titles_and_comments_are_text_partial id (fun l => List.Perm.refl l) _ _ ⟨rfl, rfl, rfl⟩ namedPost_unharmful

example : (markup none (postHtml id (namedPost "ann"))).take 5 =
    [(lit "details"), (lit "summary"), (lit "em"), (lit "/em"), (lit "/summary")] := by decide +kernel

end Hyperreal.Props
