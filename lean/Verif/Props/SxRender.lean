import Verif.Lemmas.Json
import Verif.Props.StackExchange
import Verif.Props.Export

/-!
# Properties of rendered StackExchange posts (C63)
-/

namespace Hyperreal.Props
open Atomic Spec
open SX (Db Dump Post PostRow Comment User Site Doc addSiteData docOf)

/-! ## The connection -/

theorem mapM_error {α β : Type} (f : α → Except Err β) (l : List α) (x : α) (hx : x ∈ l) (e : Err) (h : f x = .error e)
    (hall : ∀ y ∈ l, ∀ e', f y = .error e' → e' = e) : l.mapM f = .error e := by
  induction l with
  | nil => cases hx
  | cons y l ih =>
    rw [List.mapM_cons]
    cases hy : f y with
    | error e' => rw [hall y (by simp) e' hy]; rfl
    | ok v =>
      rcases List.mem_cons.1 hx with rfl | hx
      · rw [h] at hy; cases hy
      · rw [ih hx (fun z hz => hall z (by simp [hz]))]; rfl

theorem mapM_ok {α β : Type} (f : α → Except Err β) (g : α → β) (l : List α) (h : ∀ x ∈ l, f x = .ok (g x)) :
    l.mapM f = .ok (l.map g) := by
  induction l with
  | nil => rfl
  | cons x l ih => rw [List.mapM_cons, h x (by simp), ih (fun y hy => h y (by simp [hy]))]; rfl

/-- Both rendering methods: with known keys they return one entry per key, in order, and leave the connection as it was. -/
theorem renderDocs_ok {α : Type} (sp : String) (f : SX.Base × List String × List SX.CommentView → α) (keys : List Nat)
    (c : Conn Db) (db : Db) (hc : Idle c db) (g : Nat → SX.Base × List String × List SX.CommentView)
    (hg : ∀ k ∈ keys, SX.renderedFields db k = .ok (g k)) :
    (SX.renderDocs sp f keys c).2 = .ok (keys.map (fun k => (k, f (g k)))) ∧ Idle (SX.renderDocs sp f keys c).1 db ∧
      ∃ log, (SX.renderDocs sp f keys c).1.seen = log ++ c.seen ∧ ∀ s ∈ log, s = db := by
  obtain ⟨cm, wk, st, bg, lv, ch, sn⟩ := c
  obtain ⟨h1, h2, h3, h4, h5, h6⟩ := hc
  dsimp only at h1 h2 h3 h4 h5 h6
  subst h1 h2 h3 h4 h5 h6
  unfold SX.renderDocs
  have hw : (Conn.savepoint (⟨wk, wk, [], false, 0, false, sn⟩ : Conn Db) sp).work = wk := rfl
  have hm := mapM_ok (fun k => (SX.renderedFields wk k).map (fun r => (k, f r))) (fun k => (k, f (g k))) keys
    (fun k hk => by rw [hg k hk]; rfl)
  have hrel : (Conn.savepoint (⟨wk, wk, [], false, 0, false, sn⟩ : Conn Db) sp).release sp =
      some (⟨wk, wk, [], false, 0, false, wk :: wk :: sn⟩ : Conn Db) := by
    simp [Conn.savepoint, Conn.log, Conn.release, findSp]
  dsimp only
  rw [hw, hm]
  dsimp only
  rw [hrel]
  exact ⟨rfl, ⟨rfl, rfl, rfl, rfl, rfl, rfl⟩, [wk, wk], rfl, by simp⟩

/-! ## The fields -/

theorem renderedFields_post {db : Db} (h : SxWellformed db) {p : Post} (hp : p ∈ db.posts) {s : Site} (hs : s ∈ db.sites)
    (hps : s.id = p.site) : SX.renderedFields db p.docId =
      .ok ({ site := p.site, url := s.url, id := p.id, tagPost := p.tagPost, owner := p.owner, name := SX.userName db p.site p.owner,
             license := p.license, kind := p.kind, body := p.body, parent := p.parent,
             question := p.title.or (SX.parentTitle db p), link := SX.liveLink s.url p.id },
        (db.tags.filter (fun t => t.site = p.site ∧ some t.post = p.tagPost)).map (·.tag),
        (db.comments.filter (fun c => c.site = p.site ∧ c.post ≠ none ∧ c.post = p.id)).map
          (fun c => ⟨s.url, c.user, SX.userName db c.site c.user, c.text, c.license⟩)) := by
  have hst : (db.sites.filter (fun x => x.id = p.site)).head? = some s := by
    have hm : s ∈ db.sites.filter (fun x => x.id = p.site) := List.mem_filter.2 ⟨hs, by simpa using hps⟩
    cases hf : db.sites.filter (fun x => x.id = p.site) with
    | nil => rw [hf] at hm; cases hm
    | cons x l =>
      have hx : x ∈ db.sites.filter (fun x => x.id = p.site) := by rw [hf]; simp
      obtain ⟨a, b⟩ := List.mem_filter.1 hx
      have b : x.id = p.site := by simpa using b
      rw [List.head?_cons, List.inj_on_of_nodup_map h.siteIds a hs (b.trans hps.symm)]
  rw [SX.renderedFields, docId_filter (postsOk h) hp rfl]
  dsimp only
  rw [hst]

/-- The name in a rendered document, with the default of `docs`. -/
theorem userName_displayName (db : Db) (site : Nat) (u : Option Int) :
    (SX.userName db site u).getD "<Deleted User>" = SX.displayName db site u := by
  cases u with
  | none => rfl
  | some u =>
    simp only [SX.userName, SX.displayName]
    cases (db.users.filter (fun x => x.key = some (site, u))).head? <;> rfl

/-- **C63, rendering and indexing agree.** For every database of the corpus and every key: a document can be rendered
exactly when it can be served to the indexer; and then the site, id, body, kind, tags, author, commenters and comments are the
same, and the title shown is the one indexed with the post, or, for a post without one, the title of the post it belongs
to. -/
theorem rendered_is_indexed (db : Db) (h : SxWellformed db) (k : Nat) :
    (∀ e, SX.renderedFields db k = .error e ↔ docOf db k = .error e) ∧
    ∀ doc, docOf db k = .ok doc → ∃ b cs, SX.renderedFields db k = .ok (b, doc.tags, cs) ∧ b.url = doc.url ∧ b.id = doc.id ∧
      b.body = doc.body ∧ b.kind = doc.kind ∧ b.name.getD "<Deleted User>" = doc.name ∧
      cs.map (fun c => (c.name.getD "<Deleted User>", c.text)) = doc.comments ∧
      (∀ t, doc.title = some t → b.question = some t) ∧
      ∀ q ∈ db.posts, doc.title = none → q.site = doc.site → q.id ≠ none → q.id = doc.tagPost → b.question = q.title := by
  constructor
  · intro e
    unfold SX.renderedFields docOf
    cases (db.posts.filter (fun p => p.docId = k)).head? with
    | none => exact ⟨(fun h => by cases h; rfl), (fun h => by cases h; rfl)⟩
    | some p =>
      dsimp only
      cases (db.sites.filter (fun s => s.id = p.site)).head? with
      | none => exact ⟨(fun h => by cases h; rfl), (fun h => by cases h; rfl)⟩
      | some s => exact ⟨(fun h => by cases h), (fun h => by cases h)⟩
  · intro doc hdoc
    unfold docOf at hdoc
    cases hp : (db.posts.filter (fun p => p.docId = k)).head? with
    | none => rw [hp] at hdoc; cases hdoc
    | some p =>
    rw [hp] at hdoc
    dsimp only at hdoc
    cases hs : (db.sites.filter (fun s => s.id = p.site)).head? with
    | none => rw [hs] at hdoc; cases hdoc
    | some s =>
    rw [hs] at hdoc
    simp only [Except.ok.injEq] at hdoc
    subst hdoc
    have hpm := (List.mem_filter.1 (List.mem_of_mem_head? hp)).1
    refine ⟨_, _, by unfold SX.renderedFields; rw [hp]; dsimp only; rw [hs], rfl, rfl, rfl, rfl, userName_displayName _ _ _, ?_, ?_, ?_⟩
    · rw [List.map_map]
      apply List.map_congr_left
      intro c _
      simp only [Function.comp, userName_displayName]
    · intro t ht
      dsimp only at ht
      simp only [ht, Option.some_or]
    · intro q hq ht hqs hqi hqt
      dsimp only at ht hqs hqt
      simp only [ht, Option.none_or]
      obtain ⟨i, hi⟩ := Option.ne_none_iff_exists'.1 hqi
      have hqk : q.key = some (p.site, i) := by simp [SX.Post.key, hi, hqs]
      unfold SX.parentTitle
      cases hpar : p.parent with
      | none =>
        -- the post itself
        have hpi : p.id = some i := by
          have : p.tagPost = p.id := by simp [SX.Post.tagPost, hpar]
          rw [← this, ← hqt, hi]
        have : q = p := h.keys q hq p hpm (by rw [hqk]; simp) (by rw [hqk]; simp [SX.Post.key, hpi])
        dsimp only
        rw [this, ht]
      | some j =>
        have hj : j = i := by
          have : p.tagPost = some j := by simp [SX.Post.tagPost, hpar]
          rw [this, hi] at hqt
          exact (Option.some.inj hqt).symm
        subst hj
        dsimp only
        have hm : q ∈ db.posts.filter (fun x => x.key = some (p.site, j)) := List.mem_filter.2 ⟨hq, by simpa using hqk⟩
        cases hf : db.posts.filter (fun x => x.key = some (p.site, j)) with
        | nil => rw [hf] at hm; cases hm
        | cons x l =>
          have hx : x ∈ db.posts.filter (fun x => x.key = some (p.site, j)) := by rw [hf]; simp
          obtain ⟨a, b⟩ := List.mem_filter.1 hx
          have b : x.key = some (p.site, j) := by simpa using b
          have : x = q := h.keys x a q hq (by rw [b]; simp) (by rw [b, hqk])
          rw [List.head?_cons, Option.bind_some, this]

/-! ## Table rows -/

theorem get?_members (l : List (String × Option String)) (hn : (l.map (·.1)).Nodup) {n : String} {v : Option String}
    (h : (n, v) ∈ l) : Dict.get? (l.filterMap (fun e => e.2.map (fun s => (e.1, Cell.text s)))) n = v.map Cell.text := by
  induction l with
  | nil => cases h
  | cons e l ih =>
    obtain ⟨m, w⟩ := e
    simp only [List.map_cons, List.nodup_cons] at hn
    have hnot : m ∉ Dict.keys (l.filterMap (fun e => e.2.map (fun s => (e.1, Cell.text s)))) := by
      intro hm
      obtain ⟨x, hx, e⟩ := List.mem_map.1 hm
      obtain ⟨y, hy, e2⟩ := List.mem_filterMap.1 hx
      cases hy2 : y.2 with
      | none => rw [hy2] at e2; cases e2
      | some s =>
        rw [hy2] at e2
        simp only [Option.map_some, Option.some.injEq] at e2
        subst e2
        exact hn.1 (List.mem_map.2 ⟨y, hy, e⟩)
    rcases List.mem_cons.1 h with h' | h'
    · cases h'
      cases v with
      | none => rw [List.filterMap_cons_none rfl]; exact (Dict.get?_eq_none _ _).2 hnot
      | some s =>
        show Dict.get? ((n, Cell.text s) :: List.filterMap _ l) n = _
        rw [Dict.get?_cons, if_pos rfl]; rfl
    · have hne : m ≠ n := by rintro rfl; exact hn.1 (List.mem_map.2 ⟨_, h', rfl⟩)
      cases w with
      | none => rw [List.filterMap_cons_none rfl]; exact ih hn.2 h'
      | some s =>
        show Dict.get? ((m, Cell.text s) :: List.filterMap _ l) n = _
        rw [Dict.get?_cons, if_neg hne]; exact ih hn.2 h'

theorem tableRow_get (order : List String → List String) (r : SX.Base × List String × List SX.CommentView) {n : String}
    {v : Option String} (h : (n, v) ∈ SX.tableMembers order r) : Dict.get? (SX.tableRow order r) n = v.map Cell.text :=
  get?_members _ (by simp [SX.tableMembers]) h

theorem tableRow_tags (order : List String → List String) (r : SX.Base × List String × List SX.CommentView) :
    Dict.get? (SX.tableRow order r) "tags" = some (.text (", ".intercalate (order r.2.1))) :=
  tableRow_get order r (v := some (", ".intercalate (order r.2.1))) (by simp [SX.tableMembers])

theorem tableRow_comments (order : List String → List String) (r : SX.Base × List String × List SX.CommentView) :
    Dict.get? (SX.tableRow order r) "comments" = some (.text (String.ofList (SX.jsonComments r.2.2))) :=
  tableRow_get order r (v := some (String.ofList (SX.jsonComments r.2.2))) (by simp [SX.tableMembers])

theorem tableRow_keys (order : List String → List String) (r : SX.Base × List String × List SX.CommentView) {n : String}
    (h : n ∈ Dict.keys (SX.tableRow order r)) : n ∈ "site_id" :: "TagPostId" :: SX.tableFields := by
  obtain ⟨x, hx, rfl⟩ := List.mem_map.1 h
  obtain ⟨y, hy, e2⟩ := List.mem_filterMap.1 hx
  have hy1 : y.1 ∈ (SX.tableMembers order r).map (·.1) := List.mem_map.2 ⟨y, hy, rfl⟩
  have hx1 : x.1 = y.1 := by
    cases hy2 : y.2 with
    | none => rw [hy2] at e2; cases e2
    | some s => rw [hy2] at e2; simp only [Option.map_some, Option.some.injEq] at e2; rw [← e2]
  rw [hx1]
  simp only [SX.tableMembers, List.map_cons, List.map_nil] at hy1
  simp only [SX.tableFields]
  revert hy1
  simp only [List.mem_cons, List.not_mem_nil, or_false]
  tauto

/-! ## The posts of a dump -/

theorem find_id (d : Dump) (hd : Tidy d) {r : PostRow} (hr : r ∈ considered d) :
    (considered d).find? (fun x => x.id = r.id) = some r := by
  have hn := hd.postsDistinct
  generalize considered d = l at hr hn
  induction l with
  | nil => cases hr
  | cons x l ih =>
    simp only [List.map_cons, List.nodup_cons] at hn
    rcases List.mem_cons.1 hr with rfl | hr
    · rw [List.find?_cons_of_pos (by simp)]
    · rw [List.find?_cons_of_neg]
      · exact ih hr hn.2
      · simp only [decide_eq_true_eq]
        intro e
        exact hn.1 (List.mem_map.2 ⟨r, hr, e.symm⟩)

/-- The fields of a post are the data of the dump. -/
structure FieldsShow (d : Dump) (url : String) (r : PostRow) (fs : SX.Base × List String × List SX.CommentView) : Prop where
  address : fs.1.url = url
  id : fs.1.id = r.id
  owner : fs.1.owner = r.owner
  name : fs.1.name = userIn d r.owner
  license : fs.1.license = r.license
  kind : fs.1.kind = if r.typeId = some "1" then "Question" else "Answer"
  body : fs.1.body = r.body
  parent : fs.1.parent = r.parent
  question : fs.1.question = questionIn d r
  link : fs.1.link = r.id.map (fun i => url ++ "/questions/" ++ toString i)
  tags : fs.2.1 = tagsIn d (r.parent.or r.id)
  comments : fs.2.2 = (d.comments.rows.filter (fun c => c.post = r.id)).map
    (fun c => ⟨url, c.user, userIn d c.user, c.text, c.license⟩)

/-- What is rendered for the posts of a tidy dump, right after its import into an empty database. -/
theorem fresh_fields (d : Dump) (url : String) (hd : Tidy d) (i : Nat) (r : PostRow) (hi : (considered d)[i]? = some r) :
    ∃ fields, SX.renderedFields (SX.imported 1 d { sites := [⟨1, url⟩] }) (i + 1) = .ok fields ∧ FieldsShow d url r fields := by
  obtain ⟨hposts, hcom, husers, htags⟩ := fresh_tables d url hd
  have hok := import_wellformed d url {} ⟨by simp, by simp, List.Pairwise.nil, by simp, by simp⟩
  have hput : SX.putSite url {} = { sites := [⟨1, url⟩] } := rfl
  have hsite : SX.siteOf url {} = 1 := by simp [SX.siteOf, hput, SX.siteId]
  rw [hput, hsite] at hok
  generalize hdb : SX.imported 1 d { sites := [⟨1, url⟩] } = db at hposts hcom husers htags hok
  have hsites : db.sites = [⟨1, url⟩] := by rw [← hdb]; rfl
  have hrc : r ∈ considered d := List.mem_of_getElem? hi
  obtain ⟨ri, hri⟩ := Option.ne_none_iff_exists'.1 (hd.postIds r hrc)
  have hp : SX.mkPost (i + 1) 1 (if r.typeId = some "1" then "Question" else "Answer") r ∈ db.posts := by
    rw [hposts]
    exact List.mem_map.2 ⟨(r, i), List.mem_zipIdx_iff_getElem?.2 hi, rfl⟩
  have hname : ∀ u, SX.userName db 1 u = userIn d u := by
    intro u
    cases u with
    | none => rfl
    | some u =>
      simp only [SX.userName, userIn, find_filter, husers, List.find?_append, List.find?_map]
      have e1 : ((fun x : User => decide (x.key = some (1, u))) ∘ SX.userRow 1) = fun x => decide (x.id = some u) := by
        funext x
        have : (SX.userRow 1 x).key = some (1, u) ↔ x.id = some u := by
          cases hi : x.id <;> simp [SX.User.key, SX.userRow, hi]
        simp only [Function.comp, this]
      have e2 : [SX.userRow 1 {}].find? (fun x : User => decide (x.key = some (1, u))) = none := by
        simp [SX.User.key, SX.userRow]
      rw [e1, e2, Option.or_none]
      cases d.users.rows.find? (fun x => decide (x.id = some u)) <;> rfl
  have hparent : ∀ (kind : String), SX.parentTitle db (SX.mkPost (i + 1) 1 kind r) =
      match r.parent with
      | none => none
      | some q => ((considered d).find? (fun x => x.id = some q)).bind (·.title) := by
    intro kind
    unfold SX.parentTitle
    show (match r.parent with | none => none | some j => _) = _
    cases r.parent with
    | none => rfl
    | some q =>
      dsimp only
      rw [find_filter, hposts, List.find?_map]
      have key : ∀ (l : List PostRow) (k : Nat), ((l.zipIdx k).find? ((fun p : Post => decide (p.key = some (1, q))) ∘ fun x =>
          SX.mkPost (x.2 + 1) 1 (if x.1.typeId = some "1" then "Question" else "Answer") x.1)).map (·.1) =
          l.find? (fun x => x.id = some q) := by
        intro l
        induction l with
        | nil => intro k; rfl
        | cons x l ih =>
          intro k
          have hx : (SX.mkPost (k + 1) 1 (if x.typeId = some "1" then "Question" else "Answer") x).key = some (1, q) ↔ x.id = some q := by
            cases hi : x.id <;> simp [SX.Post.key, SX.mkPost, hi]
          rw [List.zipIdx_cons]
          by_cases h : x.id = some q
          · rw [List.find?_cons_of_pos (by simpa using hx.2 h), List.find?_cons_of_pos (by simpa using h)]; rfl
          · rw [List.find?_cons_of_neg (by simpa using fun e => h (hx.1 e)), List.find?_cons_of_neg (by simpa using h)]
            exact ih (k + 1)
      rw [← key (considered d) 0]
      show ((List.find? ((fun p : Post => decide (p.key = some (1, q))) ∘ fun x : PostRow × Nat =>
          SX.mkPost (x.2 + 1) 1 (if x.1.typeId = some "1" then "Question" else "Answer") x.1) (considered d).zipIdx).map _).bind _ = _
      cases List.find? ((fun p : Post => decide (p.key = some (1, q))) ∘ fun x : PostRow × Nat =>
          SX.mkPost (x.2 + 1) 1 (if x.1.typeId = some "1" then "Question" else "Answer") x.1) (considered d).zipIdx <;> rfl
  have hf := renderedFields_post hok hp (s := ⟨1, url⟩) (by rw [hsites]; simp) rfl
  refine ⟨_, hf, ?_⟩
  have hq : (r.title.or (SX.parentTitle db (SX.mkPost (i + 1) 1 (if r.typeId = some "1" then "Question" else "Answer") r))) = questionIn d r := by
    rw [hparent, questionIn]
    cases r.title <;> rfl
  refine ⟨rfl, rfl, rfl, hname _, rfl, rfl, rfl, rfl, hq, rfl, ?_, ?_⟩
  · show List.map _ (List.filter _ db.tags) = _
    rw [htags]
    have := tags_of 1 (considered d) hd.postIds (r.parent.or r.id)
    show (List.map _ (List.filter (fun t : SX.PostTag => decide (t.site = 1 ∧ some t.post = r.parent.or r.id)) _)) = _
    rw [this]
    unfold tagsIn
    have hn := hd.postsDistinct
    generalize considered d = l at hn
    induction l with
    | nil => rfl
    | cons x l ih =>
      simp only [List.map_cons, List.nodup_cons] at hn
      rw [List.flatMap_cons]
      by_cases h : x.id = r.parent.or r.id
      · rw [if_pos h, List.find?_cons_of_pos (by simpa using h)]
        have : l.flatMap (fun q => if q.id = r.parent.or r.id then SX.splitTags (q.tags.getD "") else []) = [] := by
          rw [List.flatMap_eq_nil_iff]
          intro y hy
          rw [if_neg]
          intro e
          exact hn.1 (List.mem_map.2 ⟨y, hy, by rw [e, h]⟩)
        rw [this, List.append_nil]
      · rw [if_neg h, List.find?_cons_of_neg (by simpa using h), List.nil_append]
        exact ih hn.2
  · show List.map _ (List.filter _ db.comments) = _
    rw [hcom, List.filter_append, show [SX.commentRow 1 {}].filter _ = [] by simp [SX.commentRow], List.append_nil,
      List.filter_map, List.map_map]
    have e : ((fun c : Comment => decide (c.site = 1 ∧ c.post ≠ none ∧ c.post = r.id)) ∘ SX.commentRow 1) =
        fun c => decide (c.post = r.id) := by
      funext c
      simp only [Function.comp, SX.commentRow, true_and, decide_eq_decide, hri]
      constructor
      · exact fun h => h.2
      · intro h; exact ⟨by rw [h]; simp, h⟩
    show List.map _ (List.filter ((fun c : Comment => decide (c.site = 1 ∧ c.post ≠ none ∧ c.post = r.id)) ∘ SX.commentRow 1) _) = _
    rw [e]
    apply List.map_congr_left
    intro c _
    simp only [Function.comp, SX.commentRow, hname]

theorem rowShows_of_fields {d : Dump} {url : String} {r : PostRow} {fs : SX.Base × List String × List SX.CommentView}
    (h : FieldsShow d url r fs) (order : List String → List String) (horder : ∀ l, (order l).Perm l) :
    RowShows d url r (SX.tableRow order fs) := by
  constructor
  · rw [← h.address]; exact tableRow_get order _ (v := some fs.1.url) (by simp [SX.tableMembers])
  · rw [← h.id, tableRow_get order _ (v := fs.1.id.map toString) (by simp [SX.tableMembers]), Option.map_map]; rfl
  · rw [← h.owner, tableRow_get order _ (v := fs.1.owner.map toString) (by simp [SX.tableMembers]), Option.map_map]; rfl
  · rw [← h.name, tableRow_get order _ (v := fs.1.name) (by simp [SX.tableMembers])]
  · rw [← h.license, tableRow_get order _ (v := fs.1.license) (by simp [SX.tableMembers])]
  · rw [← h.kind]; exact tableRow_get order _ (v := some fs.1.kind) (by simp [SX.tableMembers])
  · rw [← h.body, tableRow_get order _ (v := fs.1.body) (by simp [SX.tableMembers])]
  · rw [← h.parent, tableRow_get order _ (v := fs.1.parent.map toString) (by simp [SX.tableMembers]), Option.map_map]; rfl
  · rw [← h.question, tableRow_get order _ (v := fs.1.question) (by simp [SX.tableMembers])]
  · rw [tableRow_get order _ (v := fs.1.link) (by simp [SX.tableMembers]), h.link, Option.map_map]; rfl
  · exact ⟨order _, h.tags ▸ horder _, tableRow_tags order _⟩
  · refine ⟨_, tableRow_comments order _, ?_⟩
    rw [String.toList_ofList, SX.readComments_json, h.comments, List.map_map]
    rfl

/-- What is rendered for the posts of a tidy dump, right after its import into an empty database. -/
theorem fresh_rendered (d : Dump) (url : String) (hd : Tidy d) (i : Nat) (r : PostRow) (hi : (considered d)[i]? = some r) :
    ∃ fields, SX.renderedFields (SX.imported 1 d { sites := [⟨1, url⟩] }) (i + 1) = .ok fields ∧
      ∀ order : List String → List String, (∀ l, (order l).Perm l) → RowShows d url r (SX.tableRow order fields) := by
  obtain ⟨fs, h1, h2⟩ := fresh_fields d url hd i r hi
  exact ⟨fs, h1, rowShows_of_fields h2⟩

/-- **C63, tables.** After the import of a tidy dump into an empty corpus, `render_docs_table` returns one row for each of the
given keys, in order; the row shows the post the key stands for: the data of the dump, the title and the tags of its
question, and the comments as JSON that reads back.  The call changes nothing, and nothing is left open. -/
theorem rendered_table_shows_dump (fault : Nat → Option Err) (d : Dump) (url : String) (c : Conn Db) (hc : Idle c {}) (hd : Tidy d)
    (hr : (addSiteData fault d url c).2 = .ok ()) (order : List String → List String) (ho : ∀ l, (order l).Perm l)
    (keys : List Nat) (hk : ∀ k ∈ keys, 1 ≤ k ∧ k ≤ (considered d).length) :
    ∃ new rows, Idle (addSiteData fault d url c).1 new ∧
      (SX.renderTable order keys (addSiteData fault d url c).1).2 = .ok rows ∧
      Idle (SX.renderTable order keys (addSiteData fault d url c).1).1 new ∧
      List.Forall₂ (fun k row => row.1 = k ∧ ∃ r, (considered d)[k - 1]? = some r ∧ RowShows d url r row.2) keys rows := by
  have hend := SX.addSiteData_end fault d url c {} hc
  generalize addSiteData fault d url c = res at hr hend ⊢
  cases hend with
  | failed c' e log h1 h2 h3 h4 h5 => cases hr
  | done c' log h1 h2 h3 h4 =>
  have hput : SX.putSite url {} = { sites := [⟨1, url⟩] } := rfl
  have hsite : SX.siteOf url {} = 1 := by simp [SX.siteOf, hput, SX.siteId]
  rw [hput, hsite] at h1
  have hall : ∀ k : Nat, ∃ fs, k ∈ keys → ∃ r, (considered d)[k - 1]? = some r ∧
      SX.renderedFields (SX.imported 1 d { sites := [⟨1, url⟩] }) k = .ok fs ∧ RowShows d url r (SX.tableRow order fs) := by
    intro k
    by_cases hkm : k ∈ keys
    · obtain ⟨a, b⟩ := hk k hkm
      have hlt : k - 1 < (considered d).length := by omega
      obtain ⟨fs, e1, e2⟩ := fresh_rendered d url hd (k - 1) _ (List.getElem?_eq_getElem hlt)
      rw [Nat.sub_add_cancel a] at e1
      exact ⟨fs, fun _ => ⟨_, List.getElem?_eq_getElem hlt, e1, e2 order ho⟩⟩
    · exact ⟨(⟨0, "", none, none, none, none, none, "", none, none, none, none⟩, [], []), fun h => absurd h hkm⟩
  choose g hg using hall
  obtain ⟨r1, r2, -⟩ := renderDocs_ok "render_docs_spreadsheet" (SX.tableRow order) keys c' _ h1 g
    (fun k hkm => by obtain ⟨_, _, e, _⟩ := hg k hkm; exact e)
  refine ⟨_, _, h1, r1, r2, ?_⟩
  rw [List.forall₂_map_right_iff, List.forall₂_same]
  intro k hkm
  obtain ⟨r, a, _, b⟩ := hg k hkm
  exact ⟨rfl, r, a, b⟩

/-- **C63, HTML.** `render_docs_html` returns one entry per key, in order, made from the same fields; it changes nothing. -/
theorem rendered_html_in_order (order : List String → List String) (keys : List Nat) (c : Conn Db) (db : Db) (hc : Idle c db)
    (hk : ∀ k ∈ keys, ∃ doc, docOf db k = .ok doc) (h : SxWellformed db) :
    ∃ pages, (SX.renderHtml order keys c).2 = .ok pages ∧ Idle (SX.renderHtml order keys c).1 db ∧
      List.Forall₂ (fun k page => page.1 = k ∧ ∃ fs, SX.renderedFields db k = .ok fs ∧ page.2 = SX.postHtml order fs) keys pages := by
  have hall : ∀ k : Nat, ∃ fs, k ∈ keys → SX.renderedFields db k = .ok fs := by
    intro k
    by_cases hkm : k ∈ keys
    · obtain ⟨doc, hdoc⟩ := hk k hkm
      obtain ⟨b, cs, e, -⟩ := (rendered_is_indexed db h k).2 doc hdoc
      exact ⟨_, fun _ => e⟩
    · exact ⟨(⟨0, "", none, none, none, none, none, "", none, none, none, none⟩, [], []), fun h => absurd h hkm⟩
  choose g hg using hall
  obtain ⟨r1, r2, -⟩ := renderDocs_ok "render_docs_html" (SX.postHtml order) keys c db hc g hg
  refine ⟨_, r1, r2, ?_⟩
  rw [List.forall₂_map_right_iff, List.forall₂_same]
  exact fun k hkm => ⟨rfl, g k, hg k hkm, rfl⟩

/-- **C63, refuted for unknown keys.** With a key that belongs to no post the methods raise `IndexError`, as `docs` does, but
unlike `docs` they leave their savepoint: the connection of the corpus stays inside a transaction. -/
theorem render_unknown_key_leaves_savepoint {α : Type} (sp : String) (f : SX.Base × List String × List SX.CommentView → α)
    (keys : List Nat) (c : Conn Db) (db : Db) (hc : Idle c db) (hk : ∃ k ∈ keys, ∀ p ∈ db.posts, p.docId ≠ k) :
    (SX.renderDocs sp f keys c).2 = .error .indexError ∧ (SX.renderDocs sp f keys c).1.inTxn = true ∧
      ¬ ∃ db', Idle (SX.renderDocs sp f keys c).1 db' := by
  obtain ⟨k, hk, hno⟩ := hk
  have herr : ∀ k e, SX.renderedFields db k = .error e → e = .indexError := by
    intro k e h
    unfold SX.renderedFields at h
    split at h
    · cases h; rfl
    · split at h
      · cases h; rfl
      · cases h
  have hkey : SX.renderedFields db k = .error .indexError := by
    have : (db.posts.filter (fun p => p.docId = k)) = [] := by
      rw [List.filter_eq_nil_iff]
      intro p hp
      simpa using hno p hp
    rw [SX.renderedFields, this]
    rfl
  have hm := mapM_error (fun k => (SX.renderedFields db k).map (fun r => (k, f r))) keys k hk .indexError
    (by rw [hkey]; rfl) (by
      intro y _ e' h
      cases hy : SX.renderedFields db y with
      | ok v => rw [hy] at h; cases h
      | error e => rw [hy] at h; cases h; exact herr y _ hy)
  have hw : (Conn.savepoint c sp).work = db := by show c.work = db; exact hc.work
  have e : SX.renderDocs sp f keys c = (Conn.savepoint c sp, .error .indexError) := by
    unfold SX.renderDocs
    dsimp only
    rw [hw, hm]
  rw [e]
  refine ⟨rfl, ?_, ?_⟩
  · show (c.begun || !((sp, c.work) :: c.stack).isEmpty) = true
    simp
  · rintro ⟨db', h⟩
    have := h.stack
    cases this

/-! ## Export -/

/-- `SX.renderValues` is `renderTable` (on an idle connection), the keys being written as values. -/
theorem sxRender_eq (order : List String → List String) (c : Conn Db) (db : Db) (hc : Idle c db) (keys : List Nat)
    (rows : List (Nat × Rendered)) (h : (SX.renderTable order keys c).2 = .ok rows) :
    SX.renderValues order db (keys.map (fun n : Nat => Val.int n)) = .ok (rows.map (fun x => (Val.int (x.1 : Nat), x.2))) := by
  unfold SX.renderTable SX.renderDocs at h
  dsimp only at h
  have hw : (Conn.savepoint c "render_docs_spreadsheet").work = db := by show c.work = db; exact hc.work
  rw [hw] at h
  replace h : keys.mapM (fun k => (SX.renderedFields db k).map (fun r => (k, SX.tableRow order r))) = .ok rows := by
    cases hm : keys.mapM (fun k => (SX.renderedFields db k).map (fun r => (k, SX.tableRow order r))) with
    | error e => rw [hm] at h; cases h
    | ok l =>
      rw [hm] at h
      dsimp only at h
      split at h
      · cases h
      · exact h
  clear hw
  unfold SX.renderValues
  induction keys generalizing rows with
  | nil => cases h; rfl
  | cons k ks ih =>
    rw [List.mapM_cons] at h
    rw [List.map_cons, List.mapM_cons]
    have hk : SX.asKey (Val.int (k : Nat)) = some k := rfl
    rw [hk]
    dsimp only
    cases hf : SX.renderedFields db k with
    | error e => rw [hf] at h; cases h
    | ok r =>
      rw [hf] at h
      cases hm : ks.mapM (fun k => (SX.renderedFields db k).map (fun r => (k, SX.tableRow order r))) with
      | error e => rw [hm] at h; cases h
      | ok l =>
        rw [hm] at h
        cases h
        rw [ih l hm]
        rfl

theorem clusterColumn_prefix (c : Int) : (clusterColumn c).toList.take 8 = ['c', 'l', 'u', 's', 't', 'e', 'r', '_'] := by
  have : clusterColumn c = "cluster_" ++ toString c := by simp [clusterColumn]; rfl
  rw [this, String.toList_append, List.take_append_of_le_length (by decide)]
  decide

theorem tableField_ne_column {n : String} (h : n ∈ "site_id" :: "TagPostId" :: SX.tableFields) (c : Int) : n ≠ clusterColumn c := by
  rintro rfl
  have := clusterColumn_prefix c
  have hall : ∀ n ∈ "site_id" :: "TagPostId" :: SX.tableFields, n.toList.take 8 ≠ ['c', 'l', 'u', 's', 't', 'e', 'r', '_'] := by
    decide +kernel
  exact hall _ h this

/-- **C63, exported samples.** When the index was made from this corpus (its keys are keys of posts), `export_document_sample`
writes one row per sampled document, with the cells of the row that `render_docs_table` gives for its key (`rendered_table_shows_dump`)
and the columns of clusters (C50). -/
theorem sx_sample_exported (order : List String → List String) (sx : Db) (content : Val → Rendered) (idx : DB)
    (hcontent : ∀ d k, (d, k) ∈ idx.docKeys → ∃ n fs, SX.asKey k = some n ∧ SX.renderedFields sx n = .ok fs ∧
      content k = SX.tableRow order fs)
    (hcols : ∀ k, ∀ n ∈ Dict.keys (content k), n ∈ "site_id" :: "TagPostId" :: SX.tableFields)
    (samples clusters : Dict Int Bitmap) (hd : ∀ e ∈ samples, ∀ d ∈ e.2, ∃ k, (d, k) ∈ idx.docKeys)
    (hn : (Dict.keys clusters).Nodup) :
    ∃ rows columns, exportSample (SX.renderValues order sx) SX.tableFields idx samples clusters = .ok rows ∧
      columns = ["doc_key", "sampled_cluster"] ++ SX.tableFields ++ ((Dict.keys clusters).insertionSort (· ≤ ·)).map clusterColumn ∧
      List.Forall₂ (RowFor content SX.tableFields idx clusters columns)
        (samples.flatMap (fun e => e.2.elems.map (fun d => (e.1, d)))) rows := by
  refine export_rows_aligned (SX.renderValues order sx) content SX.tableFields idx samples clusters ?_ hd hn ?_ ?_
  · intro ks hks
    unfold SX.renderValues
    apply mapM_ok
    intro k hk
    obtain ⟨d, hdk⟩ := hks k hk
    obtain ⟨n, fs, e1, e2, e3⟩ := hcontent d k hdk
    rw [e1]
    dsimp only
    rw [e2, e3]
    rfl
  · intro f hf
    have : ∀ f ∈ SX.tableFields, f ≠ "doc_key" ∧ f ≠ "sampled_cluster" := by decide +kernel
    exact ⟨(this f hf).1, (this f hf).2, fun x _ => tableField_ne_column (by simp [hf]) x.1⟩
  · intro k x _
    rw [Dict.get?_eq_none]
    intro hm
    exact tableField_ne_column (hcols k _ hm) x.1 rfl

/-! ## Examples -/

/-- The demo dump has a question and an answer with a comment. -/
example : ∃ new rows, Idle (addSiteData (fun _ => none) sampleDump "site" (Conn.fresh {})).1 new ∧
    (SX.renderTable id [2, 1] (addSiteData (fun _ => none) sampleDump "site" (Conn.fresh {})).1).2 = .ok rows ∧
    Idle (SX.renderTable id [2, 1] (addSiteData (fun _ => none) sampleDump "site" (Conn.fresh {})).1).1 new ∧
    List.Forall₂ (fun k row => row.1 = k ∧ ∃ r, (considered sampleDump)[k - 1]? = some r ∧ RowShows sampleDump "site" r row.2)
      [2, 1] rows :=
  rendered_table_shows_dump (fun _ => none) sampleDump "site" (Conn.fresh {}) ⟨rfl, rfl, rfl, rfl, rfl, rfl⟩ sampleDump_tidy rfl id
    (fun l => List.Perm.refl l) [2, 1] (by decide +kernel)

set_option synthInstance.maxSize 4000 in
set_option synthInstance.maxHeartbeats 200000 in
/-- The row of the answer: the question's title, no author, the comment. -/
example : (SX.renderTable id [2] (addSiteData (fun _ => none) sampleDump "site" (Conn.fresh {})).1).2.toOption.map
      (fun l => l.map (fun x => (x.1, Dict.get? x.2 "QuestionTitle", Dict.get? x.2 "DisplayName", Dict.get? x.2 "tags", Dict.get? x.2 "comments"))) =
    some [(2, some (.text "T"), none, some (.text "a, b"),
      some (.text "[{\"DisplayName\": \"ann\", \"Text\": \"c\", \"ContentLicense\": null}]"))] := by decide +kernel

/-- The answer of the demo dump has no title of its own: it is shown with the question's. -/
example : questionIn sampleDump { typeId := some "2", id := some 7, parent := some 5, body := some "B", created := some "2020-01-02" } = some "T" ∧
    readComments (SX.jsonComments [⟨"s", some 1, some "a\"b", some "é \n 𝄞", none⟩]) = some [(some "a\"b", some "é \n 𝄞", none)] :=
  ⟨by decide +kernel, SX.readComments_json _⟩

/-- C63: the comments cell of a rendered table row is JSON that reads back to the names, texts and licenses of the comments,
in order, whatever characters they contain. -/
theorem comments_cell_reads_back (cs : List SX.CommentView) :
    readComments (SX.jsonComments cs) = some (cs.map (fun c => (c.name, c.text, c.license))) := SX.readComments_json cs

example : readComments (SX.jsonComments [⟨"s", some 1, some "\\\"", some "𝄞\n", none⟩, ⟨"s", none, none, none, some "CC"⟩]) =
    some [(some "\\\"", some "𝄞\n", none), (none, none, some "CC")] := comments_cell_reads_back _

example : (SX.renderHtml id [9] (Conn.fresh sxDb)).2.toOption = none ∧ (SX.renderHtml id [9] (Conn.fresh sxDb)).1.stack ≠ [] ∧
    (∃ k ∈ [9], ∀ p ∈ sxDb.posts, p.docId ≠ k) := ⟨rfl, by decide, by decide⟩

/-- An index of a corpus with one post. -/
example : ∃ rows columns, exportSample (SX.renderValues id sxDb) SX.tableFields { docKeys := [(0, .int 1)] } [(1, {0})] [(1, {0})] = .ok rows ∧
    columns = ["doc_key", "sampled_cluster"] ++ SX.tableFields ++ ([1].insertionSort (· ≤ ·)).map clusterColumn ∧
    List.Forall₂ (RowFor (fun k => if k = .int 1 then SX.tableRow id ((SX.renderedFields sxDb 1).toOption.getD
        (⟨0, "", none, none, none, none, none, "", none, none, none, none⟩, [], [])) else []) SX.tableFields
      { docKeys := [(0, .int 1)] } [(1, {0})] columns) ([((1 : Int), ({0} : Bitmap))].flatMap (fun e => e.2.elems.map (fun d => (e.1, d)))) rows := by
  refine sx_sample_exported id sxDb _ { docKeys := [(0, .int 1)] } ?_ ?_ [(1, {0})] [(1, {0})] ?_ (by decide)
  · intro d k h
    simp only [List.mem_singleton, Prod.mk.injEq] at h
    obtain ⟨rfl, rfl⟩ := h
    exact ⟨1, _, rfl, rfl, rfl⟩
  · intro k n hn
    split at hn
    · exact tableRow_keys id _ hn
    · cases hn
  · intro e he d hd
    simp only [List.mem_singleton] at he
    subst he
    simp only [Finset.mem_singleton] at hd
    exact ⟨.int 1, by simp [hd]⟩

end Hyperreal.Props
