import Verif.Props.PipelineSx
import Verif.Props.PipelineServe
import Verif.Spec.Sites

/-!
# The dumps of several sites in one corpus (C81)
-/

namespace Hyperreal.Props
open Atomic Spec
open SX (Db Dump Post PostRow Comment User Site Doc addSiteData docOf)

/-- What is stored of a post. -/
def storedPost (s off : Nat) (x : PostRow × Nat) : Post :=
  SX.mkPost (off + x.2 + 1) s (if x.1.typeId = some "1" then "Question" else "Answer") x.1

/-- The rows of the site `s` are those of the dump; the numbers of its posts follow `off`. -/
structure SiteRows (d : Dump) (url : String) (s off : Nat) (db : Db) : Prop where
  site : (⟨s, url⟩ : Site) ∈ db.sites
  posts : db.posts.filter (fun p => p.site = s) = (considered d).zipIdx.map (storedPost s off)
  comments : db.comments.filter (fun c => c.site = s) = d.comments.rows.map (SX.commentRow s) ++ [SX.commentRow s {}]
  users : db.users.filter (fun u => u.site = s) = d.users.rows.map (SX.userRow s) ++ [SX.userRow s {}]
  tags : db.tags.filter (fun t => t.site = s) =
    (considered d).flatMap (fun r => (splitTagsOf r).map (fun t => (⟨s, r.id.getD 0, t⟩ : SX.PostTag)))

/-- Looking at one site only. -/
theorem filter_within {α : Type} (l : List α) (q r : α → Bool) (h : ∀ x, r x = true → q x = true) :
    l.filter r = (l.filter q).filter r := by
  rw [List.filter_filter]
  apply List.filter_congr
  intro x _
  cases hr : r x with
  | false => simp
  | true => simp [h x hr]

theorem userKey_site {u : User} {s : Nat} {i : Int} (h : u.key = some (s, i)) : u.site = s := by
  unfold SX.User.key at h
  cases hi : u.id with
  | none => rw [hi] at h; cases h
  | some j => rw [hi] at h; simp only [Option.map_some, Option.some.injEq, Prod.mk.injEq] at h; exact h.1

theorem SiteRows.user {d : Dump} {url : String} {s off : Nat} {db : Db} (h : SiteRows d url s off db) (u : Int) :
    (db.users.filter (fun x => x.key = some (s, u))).head? = (d.users.rows.find? (fun x => x.id = some u)).map (SX.userRow s) := by
  rw [filter_within db.users (fun x => x.site = s) (fun x => x.key = some (s, u)) (by
    intro x hx
    simp only [decide_eq_true_eq] at hx ⊢
    exact userKey_site hx), h.users, find_filter, List.find?_append, List.find?_map]
  have e1 : ((fun x : User => decide (x.key = some (s, u))) ∘ SX.userRow s) = fun x => decide (x.id = some u) := by
    funext x
    have : (SX.userRow s x).key = some (s, u) ↔ x.id = some u := by
      cases hi : x.id <;> simp [SX.User.key, SX.userRow, hi]
    simp only [Function.comp, this]
  have e2 : [SX.userRow s {}].find? (fun x : User => decide (x.key = some (s, u))) = none := by
    simp [SX.User.key, SX.userRow]
  rw [e1, e2, Option.or_none]

theorem SiteRows.displayName {d : Dump} {url : String} {s off : Nat} {db : Db} (h : SiteRows d url s off db) (u : Option Int) :
    SX.displayName db s u = nameIn d u := by
  cases u with
  | none => rfl
  | some u =>
    simp only [SX.displayName, nameIn, h.user u]
    cases d.users.rows.find? (fun x => decide (x.id = some u)) <;> rfl

theorem SiteRows.userName {d : Dump} {url : String} {s off : Nat} {db : Db} (h : SiteRows d url s off db) (u : Option Int) :
    SX.userName db s u = userIn d u := by
  cases u with
  | none => rfl
  | some u =>
    simp only [SX.userName, userIn, h.user u]
    cases d.users.rows.find? (fun x => decide (x.id = some u)) <;> rfl

theorem SiteRows.mem {d : Dump} {url : String} {s off : Nat} {db : Db} (h : SiteRows d url s off db) {n : Nat} {r : PostRow}
    (hn : (considered d)[n]? = some r) : storedPost s off (r, n) ∈ db.posts := by
  have : storedPost s off (r, n) ∈ db.posts.filter (fun p => p.site = s) := by
    rw [h.posts]
    exact List.mem_map.2 ⟨(r, n), List.mem_zipIdx_iff_getElem?.2 hn, rfl⟩
  exact (List.mem_filter.1 this).1

theorem SiteRows.tagsOf {d : Dump} {url : String} {s off : Nat} {db : Db} (h : SiteRows d url s off db) (hd : Tidy d) (tp : Option Int) :
    (db.tags.filter (fun t => t.site = s ∧ some t.post = tp)).map (·.tag) =
      (considered d).flatMap (fun q => if q.id = tp then SX.splitTags (q.tags.getD "") else []) := by
  rw [filter_within db.tags (fun t => t.site = s) (fun t => t.site = s ∧ some t.post = tp) (by
    intro x hx
    simp only [decide_eq_true_eq] at hx ⊢
    exact hx.1), h.tags]
  exact tags_of s (considered d) hd.postIds tp

theorem SiteRows.commentsOf {d : Dump} {url : String} {s off : Nat} {db : Db} (h : SiteRows d url s off db) {id : Option Int} (hid : id ≠ none) :
    db.comments.filter (fun c => c.site = s ∧ c.post ≠ none ∧ c.post = id) =
      (d.comments.rows.filter (fun c => c.post = id)).map (SX.commentRow s) := by
  obtain ⟨i, hi⟩ := Option.ne_none_iff_exists'.1 hid
  rw [filter_within db.comments (fun c => c.site = s) (fun c => c.site = s ∧ c.post ≠ none ∧ c.post = id) (by
    intro x hx
    simp only [decide_eq_true_eq] at hx ⊢
    exact hx.1), h.comments, List.filter_append, show [SX.commentRow s {}].filter _ = [] by simp [SX.commentRow], List.append_nil,
      List.filter_map]
  congr 1
  apply List.filter_congr
  intro c _
  simp only [Function.comp, SX.commentRow, true_and, decide_eq_decide, hi]
  constructor
  · exact fun h => h.2
  · intro h; exact ⟨by rw [h]; simp, h⟩

/-- What is read of a post. -/
theorem SiteRows.doc {d : Dump} {url : String} {s off : Nat} {db : Db} (h : SiteRows d url s off db) (hd : Tidy d) (hw : SxWellformed db)
    {n : Nat} {r : PostRow} (hn : (considered d)[n]? = some r) : docOf db (off + n + 1) = .ok (docFrom d url s r) := by
  have hst : (db.sites.filter (fun x => x.id = s)).head? = some ⟨s, url⟩ := by
    have hm : (⟨s, url⟩ : Site) ∈ db.sites.filter (fun x => x.id = s) := List.mem_filter.2 ⟨h.site, by simp⟩
    cases hf : db.sites.filter (fun x => x.id = s) with
    | nil => rw [hf] at hm; cases hm
    | cons x l =>
      have hx := List.mem_filter.1 (show x ∈ db.sites.filter (fun x => x.id = s) by rw [hf]; simp)
      rw [List.inj_on_of_nodup_map hw.siteIds hx.1 h.site (by simpa using hx.2)]
      rfl
  have hrc := List.mem_of_getElem? hn
  unfold docOf
  rw [docId_filter (postsOk hw) (h.mem hn) (k := off + n + 1) rfl]
  dsimp only [storedPost, SX.mkPost]
  rw [hst]
  dsimp only
  rw [h.displayName]
  simp only [docFrom, SX.Post.tagPost, Except.ok.injEq, Doc.mk.injEq, true_and]
  refine ⟨h.tagsOf hd _, ?_⟩
  rw [h.commentsOf (hd.postIds r hrc), List.map_map]
  apply List.map_congr_left
  intro c _
  simp only [Function.comp, SX.commentRow, h.displayName]

/-- What is rendered of a post. -/
theorem SiteRows.rendered {d : Dump} {url : String} {s off : Nat} {db : Db} (h : SiteRows d url s off db) (hd : Tidy d) (hw : SxWellformed db)
    {n : Nat} {r : PostRow} (hi : (considered d)[n]? = some r) :
    ∃ fields, SX.renderedFields db (off + n + 1) = .ok fields ∧ FieldsShow d url r fields := by
  have hrc : r ∈ considered d := List.mem_of_getElem? hi
  have hparent : SX.parentTitle db (storedPost s off (r, n)) =
      match r.parent with
      | none => none
      | some q => ((considered d).find? (fun x => x.id = some q)).bind (·.title) := by
    unfold SX.parentTitle
    show (match r.parent with | none => none | some j => _) = _
    cases r.parent with
    | none => rfl
    | some q =>
      dsimp only
      show ((db.posts.filter (fun p => p.key = some (s, q))).head?.bind _) = _
      rw [filter_within db.posts (fun p => p.site = s) (fun p => p.key = some (s, q)) (by
        intro x hx
        simp only [decide_eq_true_eq] at hx ⊢
        exact (SX.key_some hx).1), h.posts, find_filter, List.find?_map]
      have key : ∀ (l : List PostRow) (k : Nat), ((l.zipIdx k).find? ((fun p : Post => decide (p.key = some (s, q))) ∘ storedPost s off)).map (·.1) =
          l.find? (fun x => x.id = some q) := by
        intro l
        induction l with
        | nil => intro k; rfl
        | cons x l ih =>
          intro k
          have hx : (storedPost s off (x, k)).key = some (s, q) ↔ x.id = some q := by
            cases hi : x.id <;> simp [SX.Post.key, storedPost, SX.mkPost, hi]
          rw [List.zipIdx_cons]
          by_cases h : x.id = some q
          · rw [List.find?_cons_of_pos (by simpa using hx.2 h), List.find?_cons_of_pos (by simpa using h)]; rfl
          · rw [List.find?_cons_of_neg (by simpa using fun e => h (hx.1 e)), List.find?_cons_of_neg (by simpa using h)]
            exact ih (k + 1)
      rw [← key (considered d) 0]
      cases List.find? ((fun p : Post => decide (p.key = some (s, q))) ∘ storedPost s off) (considered d).zipIdx <;> rfl
  have hf := renderedFields_post hw (h.mem hi) (s := ⟨s, url⟩) h.site rfl
  have hq : (r.title.or (SX.parentTitle db (storedPost s off (r, n)))) = questionIn d r := by
    rw [hparent, questionIn]
    cases r.title <;> rfl
  have hname := h.userName
  refine ⟨_, hf, rfl, rfl, rfl, hname _, rfl, rfl, rfl, rfl, hq, rfl, ?_, ?_⟩
  · show List.map _ (List.filter (fun t : SX.PostTag => decide (t.site = s ∧ some t.post = r.parent.or r.id)) _) = _
    rw [h.tagsOf hd]
    unfold tagsIn
    have hn := hd.postsDistinct
    generalize considered d = l at hn
    induction l with
    | nil => rfl
    | cons x l ih =>
      simp only [List.map_cons, List.nodup_cons] at hn
      rw [List.flatMap_cons]
      by_cases h : x.id = r.parent.or r.id
      · rw [if_pos h, List.find?_cons_of_pos (by simpa using h)]
        have : l.flatMap (fun q => if q.id = r.parent.or r.id then SX.splitTags (q.tags.getD "") else []) = [] := by
          rw [List.flatMap_eq_nil_iff]
          intro y hy
          rw [if_neg]
          intro e
          exact hn.1 (List.mem_map.2 ⟨y, hy, by rw [e, h]⟩)
        rw [this, List.append_nil]
      · rw [if_neg h, List.find?_cons_of_neg (by simpa using h), List.nil_append]
        exact ih hn.2
  · show List.map _ (List.filter (fun c : Comment => decide (c.site = s ∧ c.post ≠ none ∧ c.post = r.id)) _) = _
    rw [h.commentsOf (hd.postIds r hrc), List.map_map]
    apply List.map_congr_left
    intro c _
    simp only [Function.comp, SX.commentRow, hname]

/-! ## All sites -/

theorem allPosts_snoc (l : List (Dump × String)) (x : Dump × String) :
    allPosts (l ++ [x]) = allPosts l ++ (considered x.1).map (fun r => ⟨x.1, x.2, l.length + 1, r⟩) := by
  simp only [allPosts, List.zipIdx_append, List.flatMap_append]
  simp

theorem allPosts_from {sites : List (Dump × String)} {m : Nat} {e : SitePost} (h : (allPosts sites)[m]? = some e) :
    ∃ k n, sites[k]? = some (e.dump, e.url) ∧ e.site = k + 1 ∧ (considered e.dump)[n]? = some e.row ∧
      m = (allPosts (sites.take k)).length + n := by
  induction sites using List.reverseRecOn with
  | nil => simp [allPosts] at h
  | append_singleton l x ih =>
    rw [allPosts_snoc] at h
    by_cases hm : m < (allPosts l).length
    · rw [List.getElem?_append_left hm] at h
      obtain ⟨k, n, h1, h2, h3, h4⟩ := ih h
      have hk : k < l.length := (List.getElem?_eq_some_iff.1 h1).1
      exact ⟨k, n, by rw [List.getElem?_append_left hk]; exact h1, h2, h3, by rw [List.take_append_of_le_length hk.le]; exact h4⟩
    · rw [List.getElem?_append_right (by omega), List.getElem?_map] at h
      cases hn : (considered x.1)[m - (allPosts l).length]? with
      | none => rw [hn] at h; cases h
      | some r =>
        rw [hn] at h
        cases h
        refine ⟨l.length, m - (allPosts l).length, by simp, rfl, hn, ?_⟩
        rw [List.take_left]; omega

theorem allPosts_mem {sites : List (Dump × String)} {e : SitePost} (h : e ∈ allPosts sites) :
    (e.dump, e.url) ∈ sites ∧ e.row ∈ considered e.dump ∧ 1 ≤ e.site ∧ e.site ≤ sites.length := by
  obtain ⟨m, hm⟩ := List.mem_iff_getElem?.1 h
  obtain ⟨k, n, h1, h2, h3, -⟩ := allPosts_from hm
  have := (List.getElem?_eq_some_iff.1 h1).1
  exact ⟨List.mem_of_getElem? h1, List.mem_of_getElem? h3, by omega, by omega⟩

/-- What is stored of a post of all dumps. -/
def storedAll (x : SitePost × Nat) : Post := storedPost x.1.site 0 (x.1.row, x.2)

/-- The tables hold exactly the dumps. -/
structure Stored (ds : List (Dump × String)) (db : Db) : Prop where
  well : SxWellformed db
  sites : db.sites = ds.zipIdx.map (fun x => (⟨x.2 + 1, x.1.2⟩ : Site))
  posts : db.posts = (allPosts ds).zipIdx.map storedAll
  rows : ∀ k x, ds[k]? = some x → SiteRows x.1 x.2 (k + 1) (allPosts (ds.take k)).length db
  comments : ∀ c ∈ db.comments, c.site ≤ ds.length ∧ 1 ≤ c.site
  users : ∀ c ∈ db.users, c.site ≤ ds.length ∧ 1 ≤ c.site
  tags : ∀ c ∈ db.tags, c.site ≤ ds.length

theorem stored_nil : Stored [] {} where
  well := ⟨by simp, by simp, List.Pairwise.nil, by simp, by simp⟩
  sites := rfl
  posts := rfl
  rows := by intro k x h; simp at h
  comments := by intro c h; cases h
  users := by intro c h; cases h
  tags := by intro c h; cases h

/-- The posts of a new site come after the others. -/
theorem putPosts_added (site off : Nat) (posts : List Post) (hok : SX.PostsOk posts) (hoff : (posts.map (·.docId)).foldr max 0 = off)
    (hsite : ∀ p ∈ posts, p.site ≠ site) (rows : List (PostRow × String)) (hid : ∀ r ∈ rows, r.1.id ≠ none)
    (hn : (rows.map (·.1.id)).Nodup) :
    SX.putPosts site rows posts = posts ++ rows.zipIdx.map (fun x => SX.mkPost (off + x.2 + 1) site x.1.2 x.1.1) := by
  induction rows using List.reverseRecOn with
  | nil => simp [SX.putPosts]
  | append_singleton rows r ih =>
    simp only [List.map_append, List.map_cons, List.map_nil, List.nodup_append, List.mem_singleton] at hn
    have ih := ih (fun r hr => hid r (by simp [hr])) hn.1
    have hmax : ∀ (rows : List (PostRow × String)) (k z : Nat), z ≤ off + k →
        (((rows.zipIdx k).map (fun x => SX.mkPost (off + x.2 + 1) site x.1.2 x.1.1)).map (·.docId)).foldr max z =
          if rows = [] then z else off + k + rows.length := by
      intro rows
      induction rows with
      | nil => intro k z _; rfl
      | cons t ts ih =>
        intro k z hz
        simp only [List.zipIdx_cons, List.map_cons, List.foldr_cons]
        rw [ih (k + 1) z (by omega)]
        cases ts <;> simp [SX.mkPost] <;> omega
    have hmax' : ((SX.putPosts site rows posts).map (·.docId)).foldr max 0 = off + rows.length := by
      rw [ih, List.map_append, List.foldr_append]
      have hz : ∀ (l : List Nat) (z : Nat), l.foldr max z = max (l.foldr max 0) z := by
        intro l
        induction l with
        | nil => intro z; simp
        | cons a l ih => intro z; simp only [List.foldr_cons]; rw [ih z]; omega
      rw [hz, hoff, hmax rows 0 0 (by omega)]
      cases rows <;> simp
    rw [SX.putPosts_snoc]
    rcases SX.replacePost_cases site r.2 r.1 _ (SX.putPosts_ok site rows posts hok) with
      ⟨⟨q, hq, h1, h2⟩, -⟩ | ⟨-, e⟩
    · exfalso
      rw [ih] at hq
      have hid' := hid r (by simp)
      obtain ⟨i, hi⟩ := Option.ne_none_iff_exists'.1 hid'
      rcases List.mem_append.1 hq with hq | hq
      · rw [SX.mkPost_key_eq, hi] at h2
        exact hsite q hq (SX.key_some h2).1
      · obtain ⟨⟨x, k⟩, hx, rfl⟩ := List.mem_map.1 hq
        have hx := List.fst_mem_of_mem_zipIdx hx
        rw [SX.mkPost_key_eq, SX.mkPost_key_eq] at h2
        cases hxi : x.1.id with
        | none => simp [hxi, hi] at h2
        | some j =>
          simp [hxi, hi] at h2
          exact hn.2.2 x.1.id (List.mem_map.2 ⟨x, hx, rfl⟩) r.1.id rfl (by rw [hxi, hi, h2])
    · rw [e, hmax', ih, List.zipIdx_append, List.map_append, List.append_assoc]
      simp

theorem putAll_added {α K : Type} [DecidableEq K] (key : α → Option K) (rows : List α) (hk : ∀ x ∈ rows, key x ≠ none)
    (hn : (rows.map key).Nodup) (l : List α) (hl : ∀ y ∈ l, ∀ x ∈ rows, key y ≠ key x) : SX.putAll key l rows = l ++ rows := by
  rw [SX.putAll_eq key rows hk, SX.putAll_nil key rows hk hn, List.filter_eq_self.2]
  intro y hy
  simp only [decide_eq_true_eq]
  right
  intro hm
  obtain ⟨x, hx, e⟩ := List.mem_map.1 hm
  exact hl y hy x hx e.symm

theorem commentKey_site {c : Comment} {k : Nat × Int} (h : c.key = some k) : c.site = k.1 := by
  unfold SX.Comment.key at h
  cases hi : c.id with
  | none => rw [hi] at h; cases h
  | some j => rw [hi] at h; cases h; rfl

/-- The tables after a tidy dump of a new site. -/
theorem new_tables (d : Dump) (url : String) (hd : Tidy d) (s off : Nat) (db : Db) (hok : SX.PostsOk db.posts)
    (hoff : (db.posts.map (·.docId)).foldr max 0 = off) (hp : ∀ p ∈ db.posts, p.site ≠ s)
    (hc : ∀ c ∈ db.comments, c.site ≠ s) (hu : ∀ u ∈ db.users, u.site ≠ s) (ht : ∀ x ∈ db.tags, x.site ≠ s) :
    (SX.imported s d db).posts = db.posts ++ (considered d).zipIdx.map (storedPost s off) ∧
    (SX.imported s d db).comments = db.comments ++ (d.comments.rows.map (SX.commentRow s) ++ [SX.commentRow s {}]) ∧
    (SX.imported s d db).users = db.users ++ (d.users.rows.map (SX.userRow s) ++ [SX.userRow s {}]) ∧
    (SX.imported s d db).tags = db.tags ++
      (considered d).flatMap (fun r => (splitTagsOf r).map (fun t => (⟨s, r.id.getD 0, t⟩ : SX.PostTag))) := by
  have hkd := kinded_eq d.posts.rows
  rw [show d.posts.rows.filter _ = considered d from rfl] at hkd
  refine ⟨?_, ?_, ?_, ?_⟩
  · show SX.putPosts s (SX.kinded d.posts.rows) db.posts = _
    rw [hkd, putPosts_added s off db.posts hok hoff hp]
    · rw [List.zipIdx_map, List.map_map]; rfl
    · intro r hr
      obtain ⟨x, hx, rfl⟩ := List.mem_map.1 hr
      exact hd.postIds x hx
    · rw [List.map_map]; exact hd.postsDistinct
  · show SX.putAll Comment.key db.comments _ ++ _ = _
    rw [putAll_added, List.append_assoc]
    · intro x hx
      obtain ⟨r, hr, rfl⟩ := List.mem_map.1 hx
      obtain ⟨i, hi⟩ := Option.ne_none_iff_exists'.1 (hd.commentIds r hr)
      simp [SX.Comment.key, SX.commentRow, hi]
    · have e : (d.comments.rows.map (SX.commentRow s)).map Comment.key =
          (d.comments.rows.map (·.id)).map (Option.map (fun i => (s, i))) := by
        simp only [List.map_map]; rfl
      rw [e]
      exact hd.commentsDistinct.map (fun a b h => by cases a <;> cases b <;> simp_all)
    · intro y hy x hx e
      obtain ⟨r, hr, rfl⟩ := List.mem_map.1 hx
      obtain ⟨i, hi⟩ := Option.ne_none_iff_exists'.1 (hd.commentIds r hr)
      rw [show (SX.commentRow s r).key = some (s, i) by simp [SX.Comment.key, SX.commentRow, hi]] at e
      exact hc y hy (commentKey_site e)
  · show SX.putAll User.key db.users _ ++ _ = _
    rw [putAll_added, List.append_assoc]
    · intro x hx
      obtain ⟨r, hr, rfl⟩ := List.mem_map.1 hx
      obtain ⟨i, hi⟩ := Option.ne_none_iff_exists'.1 (hd.userIds r hr)
      simp [SX.User.key, SX.userRow, hi]
    · have e : (d.users.rows.map (SX.userRow s)).map User.key =
          (d.users.rows.map (·.id)).map (Option.map (fun i => (s, i))) := by
        simp only [List.map_map]; rfl
      rw [e]
      exact hd.usersDistinct.map (fun a b h => by cases a <;> cases b <;> simp_all)
    · intro y hy x hx e
      obtain ⟨r, hr, rfl⟩ := List.mem_map.1 hx
      obtain ⟨i, hi⟩ := Option.ne_none_iff_exists'.1 (hd.userIds r hr)
      rw [show (SX.userRow s r).key = some (s, i) by simp [SX.User.key, SX.userRow, hi]] at e
      exact hu y hy (userKey_site e)
  · show SX.putAll SX.PostTag.key db.tags _ = _
    rw [tagRows_considered s d.posts.rows (fun r hr => hd.postIds r hr)]
    rw [show d.posts.rows.filter _ = considered d from rfl, putAll_added]
    · intro x _; simp [SX.PostTag.key]
    · exact tagRows_nodup s (considered d) hd.postIds hd.postsDistinct hd.tagsDistinct
    · intro y hy x hx e
      obtain ⟨r, -, hx⟩ := List.mem_flatMap.1 hx
      obtain ⟨t, -, rfl⟩ := List.mem_map.1 hx
      simp only [SX.PostTag.key, Option.some.injEq, Prod.mk.injEq] at e
      exact ht y hy (congrArg SX.PostTag.site e)

theorem foldr_max_numbers (n : Nat) : ((List.range n).map (· + 1)).foldr max 0 = n := by
  induction n with
  | zero => rfl
  | succ n ih =>
    rw [List.range_succ, List.map_append, List.foldr_append]
    have hz : ∀ (l : List Nat) (z : Nat), l.foldr max z = max (l.foldr max 0) z := by
      intro l
      induction l with
      | nil => intro z; simp
      | cons a l ih => intro z; simp only [List.foldr_cons]; rw [ih z]; omega
    rw [hz, ih]
    simp

theorem zipIdx_numbers {α : Type} (l : List α) : l.zipIdx.map (fun x => x.2 + 1) = (List.range l.length).map (· + 1) := by
  apply List.ext_getElem?
  intro i
  simp only [List.getElem?_map, List.getElem?_zipIdx, List.getElem?_range]
  by_cases hi : i < l.length <;> simp [hi]

theorem Stored.siteNumber {ds : List (Dump × String)} {db : Db} (h : Stored ds db) {url : String} (hu : url ∉ ds.map (·.2)) :
    SX.siteOf url db = ds.length + 1 ∧ (SX.putSite url db) = { db with sites := db.sites ++ [⟨ds.length + 1, url⟩] } := by
  obtain ⟨h1, h2, h3, h4, h5, h6, extra, h7, h8⟩ := SX.putSite_spec url db
  have hurls : db.sites.map (·.url) = ds.map (·.2) := by
    rw [h.sites, List.map_map]
    apply List.ext_getElem?
    intro i
    simp only [List.getElem?_map, List.getElem?_zipIdx, Function.comp]
    cases ds[i]? <;> rfl
  have hnum : (db.sites.map (·.id)).foldr max 0 = ds.length := by
    rw [h.sites, List.map_map]
    rw [show ((fun s : Site => s.id) ∘ fun x : (Dump × String) × Nat => (⟨x.2 + 1, x.1.2⟩ : Site)) = fun x => x.2 + 1 from rfl,
      zipIdx_numbers, foldr_max_numbers]
  have hnot : (⟨SX.siteOf url db, url⟩ : Site) ∉ db.sites := by
    intro hm
    exact hu (hurls ▸ List.mem_map.2 ⟨_, hm, rfl⟩)
  rcases h8 with rfl | ⟨rfl, -⟩
  · rw [h7, List.append_nil] at h6
    exact absurd h6 hnot
  · rw [h7] at h6
    rcases List.mem_append.1 h6 with h6 | h6
    · exact absurd h6 hnot
    · rw [List.mem_singleton, hnum] at h6
      refine ⟨congrArg Site.id h6, ?_⟩
      rw [hnum] at h7
      generalize SX.putSite url db = x at *
      cases x
      simp_all

theorem Stored.step {ds : List (Dump × String)} {db : Db} (h : Stored ds db) {d : Dump} {url : String} (hu : url ∉ ds.map (·.2))
    (hd : Tidy d) : Stored (ds ++ [(d, url)]) (SX.imported (SX.siteOf url db) d (SX.putSite url db)) := by
  have hw := import_wellformed d url db h.well
  obtain ⟨e1, e2⟩ := h.siteNumber hu
  rw [e1, e2] at hw ⊢
  have hlen : (db.posts.map (·.docId)).foldr max 0 = (allPosts ds).length := by
    rw [h.posts, List.map_map]
    rw [show ((fun p : Post => p.docId) ∘ storedAll) = fun x => x.2 + 1 by
      funext x; simp [storedAll, storedPost, SX.mkPost], zipIdx_numbers, foldr_max_numbers]
  have hp : ∀ p ∈ db.posts, p.site ≠ ds.length + 1 := by
    rw [h.posts]
    intro p hp
    obtain ⟨⟨e, m⟩, hx, rfl⟩ := List.mem_map.1 hp
    have := (allPosts_mem (List.fst_mem_of_mem_zipIdx hx)).2.2.2
    show e.site ≠ _
    dsimp only at this
    omega
  have hc : ∀ c ∈ db.comments, c.site ≠ ds.length + 1 := fun c hc => by have := (h.comments c hc).1; omega
  have husr : ∀ c ∈ db.users, c.site ≠ ds.length + 1 := fun c hc => by have := (h.users c hc).1; omega
  have ht : ∀ c ∈ db.tags, c.site ≠ ds.length + 1 := fun c hc => by have := h.tags c hc; omega
  obtain ⟨t1, t2, t3, t4⟩ := new_tables d url hd (ds.length + 1) (allPosts ds).length
    { db with sites := db.sites ++ [⟨ds.length + 1, url⟩] } (show SX.PostsOk db.posts from postsOk h.well) hlen hp hc husr ht
  generalize hnew : SX.imported (ds.length + 1) d { db with sites := db.sites ++ [⟨ds.length + 1, url⟩] } = new at *
  have t0 : new.sites = db.sites ++ [⟨ds.length + 1, url⟩] := by rw [← hnew]; rfl
  dsimp only at t1 t2 t3 t4
  refine ⟨hw, ?_, ?_, ?_, ?_, ?_, ?_⟩
  · rw [t0, h.sites, List.zipIdx_append, List.map_append]
    simp
  · rw [t1, h.posts, allPosts_snoc, List.zipIdx_append, List.map_append]
    congr 1
    rw [List.zipIdx_map, List.map_map]
    apply List.ext_getElem?
    intro i
    simp only [List.getElem?_map, List.getElem?_zipIdx, Function.comp]
    cases (considered d)[i]? <;> simp [storedAll, storedPost]
  · intro k x hx
    by_cases hk : k < ds.length
    · rw [List.getElem?_append_left hk] at hx
      have hr := h.rows k x hx
      rw [List.take_append_of_le_length hk.le]
      refine ⟨by rw [t0]; exact List.mem_append.2 (.inl hr.site), ?_, ?_, ?_, ?_⟩
      · rw [t1, List.filter_append, hr.posts, List.filter_eq_nil_iff.2, List.append_nil]
        intro p hp
        obtain ⟨y, -, rfl⟩ := List.mem_map.1 hp
        have : (storedPost (ds.length + 1) (allPosts ds).length y).site = ds.length + 1 := rfl
        simp only [decide_eq_true_eq]; omega
      · rw [t2, List.filter_append, hr.comments, (List.filter_eq_nil_iff (l := _ ++ [SX.commentRow (ds.length + 1) {}])).2, List.append_nil]
        intro p hp
        have : p.site = ds.length + 1 := by
          rcases List.mem_append.1 hp with hp | hp
          · obtain ⟨y, -, rfl⟩ := List.mem_map.1 hp; rfl
          · rw [List.mem_singleton.1 hp]; rfl
        simp only [decide_eq_true_eq]; omega
      · rw [t3, List.filter_append, hr.users, (List.filter_eq_nil_iff (l := _ ++ [SX.userRow (ds.length + 1) {}])).2, List.append_nil]
        intro p hp
        have : p.site = ds.length + 1 := by
          rcases List.mem_append.1 hp with hp | hp
          · obtain ⟨y, -, rfl⟩ := List.mem_map.1 hp; rfl
          · rw [List.mem_singleton.1 hp]; rfl
        simp only [decide_eq_true_eq]; omega
      · rw [t4, List.filter_append, hr.tags, List.filter_eq_nil_iff.2, List.append_nil]
        intro p hp
        obtain ⟨r, -, hp⟩ := List.mem_flatMap.1 hp
        obtain ⟨y, -, rfl⟩ := List.mem_map.1 hp
        simp only [decide_eq_true_eq]; omega
    · have hk' : k = ds.length := by
        have := (List.getElem?_eq_some_iff.1 hx).1
        simp at this
        omega
      subst hk'
      simp only [List.getElem?_concat_length, Option.some.injEq] at hx
      subst hx
      rw [List.take_left]
      have none_of : ∀ {α : Type} (l : List α) (f : α → Nat), (∀ x ∈ l, f x ≠ ds.length + 1) →
          l.filter (fun x => f x = ds.length + 1) = [] := by
        intro α l f hf
        rw [List.filter_eq_nil_iff]
        intro x hx
        simpa using hf x hx
      have all_of : ∀ {α : Type} (l : List α) (f : α → Nat), (∀ x ∈ l, f x = ds.length + 1) →
          l.filter (fun x => f x = ds.length + 1) = l := by
        intro α l f hf
        rw [List.filter_eq_self]
        intro x hx
        simpa using hf x hx
      refine ⟨by rw [t0]; simp, ?_, ?_, ?_, ?_⟩
      · rw [t1, List.filter_append, none_of db.posts (·.site) hp, List.nil_append]
        apply all_of _ (fun p : Post => p.site)
        intro p hp
        obtain ⟨y, -, rfl⟩ := List.mem_map.1 hp
        rfl
      · rw [t2, List.filter_append, none_of db.comments (·.site) hc, List.nil_append]
        apply all_of _ (fun p : Comment => p.site)
        intro p hp
        rcases List.mem_append.1 hp with hp | hp
        · obtain ⟨y, -, rfl⟩ := List.mem_map.1 hp; rfl
        · rw [List.mem_singleton.1 hp]; rfl
      · rw [t3, List.filter_append, none_of db.users (·.site) husr, List.nil_append]
        apply all_of _ (fun p : User => p.site)
        intro p hp
        rcases List.mem_append.1 hp with hp | hp
        · obtain ⟨y, -, rfl⟩ := List.mem_map.1 hp; rfl
        · rw [List.mem_singleton.1 hp]; rfl
      · rw [t4, List.filter_append, none_of db.tags (·.site) ht, List.nil_append]
        apply all_of _ (fun p : SX.PostTag => p.site)
        intro p hp
        obtain ⟨r, -, hp⟩ := List.mem_flatMap.1 hp
        obtain ⟨y, -, rfl⟩ := List.mem_map.1 hp
        rfl
  · intro c hc
    rw [t2] at hc
    simp only [List.length_append, List.length_singleton]
    rcases List.mem_append.1 hc with hc | hc
    · have := h.comments c hc; omega
    · rcases List.mem_append.1 hc with hp | hp
      · obtain ⟨y, -, rfl⟩ := List.mem_map.1 hp; simp [SX.commentRow]
      · rw [List.mem_singleton.1 hp]; simp [SX.commentRow]
  · intro c hc
    rw [t3] at hc
    simp only [List.length_append, List.length_singleton]
    rcases List.mem_append.1 hc with hc | hc
    · have := h.users c hc; omega
    · rcases List.mem_append.1 hc with hp | hp
      · obtain ⟨y, -, rfl⟩ := List.mem_map.1 hp; simp [SX.userRow]
      · rw [List.mem_singleton.1 hp]; simp [SX.userRow]
  · intro c hc
    rw [t4] at hc
    simp only [List.length_append, List.length_singleton]
    rcases List.mem_append.1 hc with hc | hc
    · have := h.tags c hc; omega
    · obtain ⟨r, -, hp⟩ := List.mem_flatMap.1 hc
      obtain ⟨y, -, rfl⟩ := List.mem_map.1 hp
      simp

/-- `add-site` on a tidy dump. -/
theorem addSite_ok (d : Dump) (url : String) (db : Db) (hd : Tidy d) :
    Pipeline.addSite d url db = (SX.imported (SX.siteOf url db) d (SX.putSite url db), .ok ()) := by
  have hi : Idle (Conn.fresh db) db := ⟨rfl, rfl, rfl, rfl, rfl, rfl⟩
  have hok := import_succeeds d url (Conn.fresh db) db hi hd.toComplete
  have hend := SX.addSiteData_end (fun _ => none) d url (Conn.fresh db) db hi
  unfold Pipeline.addSite
  generalize SX.addSiteData (fun _ => none) d url (Conn.fresh db) = res at hok hend
  cases hend with
  | failed c' e log h1 h2 h3 h4 h5 => cases hok
  | done c' log h1 h2 h3 h4 =>
    dsimp only
    congr 1
    exact h1.committed

theorem addSites_stored (new : List (Dump × String)) (old : List (Dump × String)) (db : Db) (h : Stored old db)
    (hu : ((old ++ new).map (·.2)).Nodup) (hd : ∀ x ∈ new, Tidy x.1) :
    ∃ sx, Pipeline.addSites new db = (sx, .ok ()) ∧ Stored (old ++ new) sx := by
  induction new generalizing old db with
  | nil => exact ⟨db, rfl, by rw [List.append_nil]; exact h⟩
  | cons x new ih =>
    obtain ⟨d, url⟩ := x
    have hx : Tidy d := hd (d, url) (by simp)
    have hun : url ∉ old.map (·.2) := by
      rw [List.map_append, List.map_cons, List.nodup_append] at hu
      intro hm
      exact hu.2.2 url hm url (by simp) rfl
    have hst := h.step hun hx
    obtain ⟨sx, h1, h2⟩ := ih (old ++ [(d, url)]) _ hst (by simpa using hu) (fun x hx => hd x (by simp [hx]))
    refine ⟨sx, ?_, by simpa using h2⟩
    rw [Pipeline.addSites, addSite_ok d url db hx]
    exact h1

/-- Rows of a known site are rows of its dump. -/
theorem Stored.dumpOf {ds : List (Dump × String)} {db : Db} (h : Stored ds db) {n : Nat} (h1 : 1 ≤ n) (h2 : n ≤ ds.length) :
    ∃ x off, x ∈ ds ∧ SiteRows x.1 x.2 n off db := by
  have hk : n - 1 < ds.length := by omega
  have := h.rows (n - 1) ds[n - 1] (List.getElem?_eq_getElem hk)
  rw [show n - 1 + 1 = n by omega] at this
  exact ⟨_, _, List.getElem_mem hk, this⟩

theorem Stored.userKeys {ds : List (Dump × String)} {db : Db} (h : Stored ds db) (hd : ∀ x ∈ ds, Tidy x.1) :
    ∀ u ∈ db.users, ∀ v ∈ db.users, u.key ≠ none → u.key = v.key → u = v := by
  intro u hu v hv hk he
  obtain ⟨k, hk'⟩ := Option.ne_none_iff_exists'.1 hk
  obtain ⟨s, i⟩ := k
  have hus : u.site = s := userKey_site hk'
  have hvs : v.site = s := userKey_site (he ▸ hk')
  have hb := h.users u hu
  obtain ⟨x, off, hx, hr⟩ := h.dumpOf (n := s) (by omega) (by omega)
  have mem : ∀ w ∈ db.users, w.site = s → w.key ≠ none → ∃ a ∈ x.1.users.rows, SX.userRow s a = w := by
    intro w hw hws hwk
    have : w ∈ db.users.filter (fun u => u.site = s) := List.mem_filter.2 ⟨hw, by simpa using hws⟩
    rw [hr.users] at this
    rcases List.mem_append.1 this with hm | hm
    · exact List.mem_map.1 hm
    · rw [List.mem_singleton.1 hm] at hwk
      exact absurd rfl hwk
  obtain ⟨a, ha, rfl⟩ := mem u hu hus hk
  obtain ⟨b, hb', rfl⟩ := mem v hv hvs (he ▸ hk)
  have : a.id = b.id := by
    cases h1 : a.id <;> cases h2 : b.id <;> simp_all [SX.User.key, SX.userRow]
  rw [List.inj_on_of_nodup_map (hd x hx).usersDistinct ha hb' this]

theorem Stored.readable {ds : List (Dump × String)} {db : Db} (h : Stored ds db) {t : SX.TextOps} (hd : ∀ x ∈ ds, DumpReadable t x.1) :
    SxReadable t db := by
  have hpost : ∀ p ∈ db.posts, ∃ x ∈ ds, ∃ r ∈ considered x.1, p.created = r.created ∧ p.body = r.body := by
    rw [h.posts]
    intro p hp
    obtain ⟨⟨e, m⟩, hx, rfl⟩ := List.mem_map.1 hp
    obtain ⟨a, b, -⟩ := allPosts_mem (List.fst_mem_of_mem_zipIdx hx)
    exact ⟨_, a, _, b, rfl, rfl⟩
  refine ⟨?_, ?_, ?_⟩
  · intro p hp
    obtain ⟨x, hx, r, hr, e, -⟩ := hpost p hp
    rw [e]; exact (hd x hx).dates r hr
  · intro p hp b hb
    obtain ⟨x, hx, r, hr, -, e⟩ := hpost p hp
    exact (hd x hx).bodies r hr b (e ▸ hb)
  · intro p _ c hc _ hcp _
    obtain ⟨x, off, hx, hr⟩ := h.dumpOf (h.comments c hc).2 (h.comments c hc).1
    have : c ∈ db.comments.filter (fun u => u.site = c.site) := List.mem_filter.2 ⟨hc, by simp⟩
    rw [hr.comments] at this
    rcases List.mem_append.1 this with hm | hm
    · obtain ⟨a, ha, e⟩ := List.mem_map.1 hm
      rw [← e]
      exact (hd x hx).texts a ha
    · rw [List.mem_singleton.1 hm] at hcp
      exact absurd rfl hcp

/-- What is read and rendered of the posts. -/
theorem Stored.docs {ds : List (Dump × String)} {db : Db} (h : Stored ds db) (hd : ∀ x ∈ ds, Tidy x.1) {m : Nat} {e : SitePost}
    (hm : (allPosts ds)[m]? = some e) : docOf db (m + 1) = .ok e.doc ∧
      ∃ fields, SX.renderedFields db (m + 1) = .ok fields ∧ FieldsShow e.dump e.url e.row fields := by
  obtain ⟨k, n, h1, h2, h3, rfl⟩ := allPosts_from hm
  have hr := h.rows k _ h1
  have ht := hd _ (List.mem_of_getElem? h1)
  have hdoc := hr.doc ht h.well h3
  rw [← h2] at hdoc
  exact ⟨hdoc, hr.rendered ht h.well h3⟩

/-- The corpus of several dumps: its keys, what is indexed, and what is rendered. -/
theorem sites_corpus (t : SX.TextOps) (h0 : t.tokens "" = []) (scan : List SX.Post → List SX.Post)
    (hscan : ∀ l, (scan l).Perm l) (ds : List (Dump × String)) (hds : SitesReadable t ds) (hne : allPosts ds ≠ [])
    (order : List String → List String) (ho : ∀ l, (order l).Perm l) :
    let sx := (Pipeline.addSites ds {}).1
    let corpus := SX.corpus t scan sx
    let content := fun k => okOr (SX.indexed t sx k)
    let key := fun n : Nat => Val.int ((n + 1 : Nat) : Int)
    (Pipeline.addSites ds {}).2 = .ok () ∧ Serves corpus content ∧ (∀ p, Indexable corpus content p) ∧ corpus.keys ≠ [] ∧
    (∀ k, k ∈ corpus.keys ↔ ∃ n e, (allPosts ds)[n]? = some e ∧ k = key n) ∧
    (∀ n e, (allPosts ds)[n]? = some e → ∀ f v, HasValue content (key n) f v ↔ ∃ w, v = .text w ∧ SxShows t e.doc f w) ∧
    ∃ shown : Val → Rendered, (∀ k c, Dict.get? (shown k) (clusterColumn c) = none) ∧
      (∀ ks, (∀ k ∈ ks, k ∈ corpus.keys) → SX.renderValues order sx ks = .ok (ks.map (fun k => (k, shown k)))) ∧
      ∀ n e, (allPosts ds)[n]? = some e → RowShows e.dump e.url e.row (shown (key n)) := by
  obtain ⟨sx, hadd, hst⟩ := addSites_stored ds [] {} stored_nil (by simpa using hds.urls) hds.tidy
  rw [List.nil_append] at hst
  rw [hadd]
  intro sx' corpus content key
  have hread := hst.readable hds.readable
  obtain ⟨hs, hi, hk⟩ := sx_serves t scan hscan sx hst.well hread
  have hpost : ∀ p, p ∈ sx.posts ↔ ∃ n e, (allPosts ds)[n]? = some e ∧ p = storedAll (e, n) := by
    intro p
    rw [hst.posts, List.mem_map]
    constructor
    · rintro ⟨⟨e, n⟩, hx, rfl⟩; exact ⟨n, e, List.mk_mem_zipIdx_iff_getElem?.1 hx, rfl⟩
    · rintro ⟨n, e, hx, rfl⟩; exact ⟨(e, n), List.mk_mem_zipIdx_iff_getElem?.2 hx, rfl⟩
  have hid : ∀ e n, (storedAll (e, n)).docId = n + 1 := by
    intro e n; simp [storedAll, storedPost, SX.mkPost]
  have hkeys : ∀ k, k ∈ corpus.keys ↔ ∃ n e, (allPosts ds)[n]? = some e ∧ k = key n := by
    intro k
    rw [show corpus.keys = (SX.corpus t scan sx).keys from rfl, hk]
    constructor
    · rintro ⟨p, hp, rfl⟩
      obtain ⟨n, e, h1, rfl⟩ := (hpost p).1 hp
      exact ⟨n, e, h1, by rw [hid]⟩
    · rintro ⟨n, e, h1, rfl⟩
      exact ⟨_, (hpost _).2 ⟨n, e, h1, rfl⟩, by rw [hid]⟩
  refine ⟨rfl, hs, hi, ?_, hkeys, ?_, ?_⟩
  · obtain ⟨e, l, hl⟩ := List.exists_cons_of_ne_nil hne
    exact List.ne_nil_of_mem ((hkeys (key 0)).2 ⟨0, e, by rw [hl]; rfl, rfl⟩)
  · intro n e hn f v
    obtain ⟨doc, e1, -, e3⟩ := sx_content t h0 sx hst.well (hst.userKeys hds.tidy) hread _ ((hpost _).2 ⟨n, e, hn, rfl⟩)
    rw [hid] at e1 e3
    rw [(hst.docs hds.tidy hn).1] at e1
    cases e1
    exact e3 f v
  · have hall : ∀ n : Nat, ∃ fs, ∀ e, (allPosts ds)[n]? = some e → SX.renderedFields sx (n + 1) = .ok fs ∧
        RowShows e.dump e.url e.row (SX.tableRow order fs) := by
      intro n
      cases hn : (allPosts ds)[n]? with
      | none => exact ⟨(⟨0, "", none, none, none, none, none, "", none, none, none, none⟩, [], []), fun r h => by cases h⟩
      | some r =>
        obtain ⟨-, fs, e1, e2⟩ := hst.docs hds.tidy hn
        refine ⟨fs, fun r' h' => ?_⟩
        cases h'
        exact ⟨e1, rowShows_of_fields e2 order ho⟩
    choose g hg using hall
    refine ⟨fun k => SX.tableRow order (g ((SX.asKey k).getD 0 - 1)), ?_, ?_, ?_⟩
    · intro k c
      rw [Dict.get?_eq_none]
      intro hm
      exact tableField_ne_column (tableRow_keys order _ hm) c rfl
    · intro ks hks
      unfold SX.renderValues
      apply mapM_all_ok
      intro k hk'
      obtain ⟨n, r, h1, rfl⟩ := (hkeys k).1 (hks k hk')
      have : SX.asKey (key n) = some (n + 1) := rfl
      rw [this]
      dsimp only
      rw [show sx' = sx from rfl, (hg n r h1).1]
      rfl
    · intro n r hn
      exact (hg n r hn).2

end Hyperreal.Props
