import Verif.Props.PipelineSites
import Verif.Spec.Updates

/-!
# Several dumps of the same site (C82)
-/

namespace Hyperreal.Props
open Atomic Spec
open SX (Db Dump Post PostRow Comment CommentRow User UserRow Site Doc docOf)

/-- The tables hold what the dumps said. -/
structure Holds (url : String) (m : SiteHistory) (db : Db) : Prop where
  well : SxWellformed db
  sites : db.sites = [⟨1, url⟩]
  posts : db.posts = m.posts.zipIdx.map (storedPost 1 0)
  comments : db.comments.filter (fun c => c.id ≠ none) = m.comments.map (SX.commentRow 1)
  commentSites : ∀ c ∈ db.comments, c.site = 1 ∧ (c.id = none → c.post = none)
  users : db.users.filter (fun u => u.id ≠ none) = m.users.map (SX.userRow 1)
  userSites : ∀ u ∈ db.users, u.site = 1
  tags : db.tags = m.tags.map (fun x => (⟨1, x.1.getD 0, x.2⟩ : SX.PostTag))
  postIds : ∀ p ∈ m.posts, p.id ≠ none
  tagIds : ∀ x ∈ m.tags, x.1 ≠ none

/-- Only what has an id. -/
theorem filter_replaceRow_some {α K : Type} [DecidableEq K] (key : α → Option K) (q : α → Bool) (x : α) (hx : q x = true) (l : List α) :
    (SX.replaceRow key l x).filter q = SX.replaceRow key (l.filter q) x := by
  unfold SX.replaceRow
  cases key x with
  | none => simp [List.filter_append, hx]
  | some k =>
    simp only [List.filter_append, List.filter_filter]
    congr 1
    · apply List.filter_congr; intro y _; exact Bool.and_comm _ _
    · simp [hx]

theorem filter_putAll_some {α K : Type} [DecidableEq K] (key : α → Option K) (q : α → Bool) (rows : List α) (hx : ∀ x ∈ rows, q x = true)
    (l : List α) : (SX.putAll key l rows).filter q = SX.putAll key (l.filter q) rows := by
  induction rows using List.reverseRecOn with
  | nil => rfl
  | append_singleton rows x ih =>
    have e : ∀ l, SX.putAll key l (rows ++ [x]) = SX.replaceRow key (SX.putAll key l rows) x := by
      intro l; simp [SX.putAll, List.foldl_append]
    rw [e, e, filter_replaceRow_some key q x (hx x (by simp)), ih (fun x h => hx x (by simp [h]))]

/-- New rows with distinct keys replace those with the same key and come last. -/
theorem putAll_replaces {α K : Type} [DecidableEq K] (key : α → Option K) (rows : List α) (hk : ∀ x ∈ rows, key x ≠ none)
    (hn : (rows.map key).Nodup) (l : List α) (hl : ∀ y ∈ l, key y ≠ none) :
    SX.putAll key l rows = l.filter (fun y => key y ∉ rows.map key) ++ rows := by
  rw [SX.putAll_eq key rows hk, SX.putAll_nil key rows hk hn]
  congr 1
  apply List.filter_congr
  intro y hy
  simp only [decide_eq_decide]
  exact ⟨fun h => h.resolve_left (hl y hy), .inr⟩

/-- The posts, in place. -/
theorem putPosts_merged (site : Nat) (posts : List PostRow) (hid : ∀ p ∈ posts, p.id ≠ none) (rows : List PostRow)
    (hok : SX.PostsOk (posts.zipIdx.map (storedPost site 0)))
    (hri : ∀ r ∈ rows, r.id ≠ none) (hn : (rows.map (·.id)).Nodup) :
    SX.putPosts site (rows.map (fun r => (r, if r.typeId = some "1" then "Question" else "Answer"))) (posts.zipIdx.map (storedPost site 0)) =
      (posts.map (fun p => (rows.find? (fun r => r.id = p.id)).getD p) ++
        rows.filter (fun r => r.id ∉ posts.map (·.id))).zipIdx.map (storedPost site 0) := by
  induction rows using List.reverseRecOn with
  | nil => simp [SX.putPosts]
  | append_singleton rows r ih =>
    simp only [List.map_append, List.map_cons, List.map_nil, List.nodup_append, List.mem_singleton] at hn
    have hnr : ∀ x ∈ rows, x.id ≠ r.id := fun x hx e => hn.2.2 x.id (List.mem_map.2 ⟨x, hx, rfl⟩) r.id rfl e
    have ih := ih (fun r hr => hri r (by simp [hr])) hn.1
    have hok' := SX.putPosts_ok site (rows.map (fun r => (r, if r.typeId = some "1" then "Question" else "Answer"))) _ hok
    rw [List.map_append, List.map_cons, List.map_nil, SX.putPosts_snoc]
    have hcases := SX.replacePost_cases site (if r.typeId = some "1" then "Question" else "Answer") r _ hok'
    rw [ih] at hcases ⊢
    have hr := hri r (by simp)
    obtain ⟨i, hi⟩ := Option.ne_none_iff_exists'.1 hr
    set old := posts.map (fun p => (rows.find? (fun r => r.id = p.id)).getD p) ++ rows.filter (fun r => r.id ∉ posts.map (·.id)) with hold
    have hkey : ∀ x : PostRow × Nat, (storedPost site 0 x).key = some (site, i) ↔ x.1.id = r.id := by
      intro x
      rw [hi]
      cases hxi : x.1.id <;> simp [storedPost, SX.mkPost, SX.Post.key, hxi]
    have hkr : (SX.mkPost 0 site (if r.typeId = some "1" then "Question" else "Answer") r).key = some (site, i) := by
      rw [SX.mkPost_key_eq, hi]; rfl
    rw [hkr] at hcases
    have hgid : ∀ p ∈ posts, ((rows.find? (fun r => r.id = p.id)).getD p).id = p.id := by
      intro p _
      cases hf : rows.find? (fun r => r.id = p.id) with
      | none => rfl
      | some y => simpa using List.find?_some hf
    by_cases hex : r.id ∈ posts.map (·.id)
    · have hne : ¬ ∀ q ∈ old.zipIdx.map (storedPost site 0), q.key ≠ none → q.key ≠ some (site, i) := by
        obtain ⟨p, hp, hpe⟩ := List.mem_map.1 hex
        intro hall
        have hm : (rows.find? (fun r => r.id = p.id)).getD p ∈ old := by
          rw [hold]; exact List.mem_append.2 (.inl (List.mem_map.2 ⟨p, hp, rfl⟩))
        obtain ⟨n, hn'⟩ := List.mem_iff_getElem?.1 hm
        have hq : (storedPost site 0 ((rows.find? (fun r => r.id = p.id)).getD p, n)).key = some (site, i) :=
          (hkey _).2 (by rw [hgid p hp, hpe])
        exact hall _ (List.mem_map.2 ⟨_, List.mk_mem_zipIdx_iff_getElem?.2 hn', rfl⟩) (by rw [hq]; simp) hq
      rcases hcases with ⟨-, e⟩ | ⟨h, -⟩
      · rw [e, List.map_map]
        have hnew : posts.map (fun p => ((rows ++ [r]).find? (fun r => r.id = p.id)).getD p) ++
            (rows ++ [r]).filter (fun r => r.id ∉ posts.map (·.id)) = old.map (fun p => if p.id = r.id then r else p) := by
          rw [hold, List.map_append, List.map_map, List.filter_append, List.filter_cons_of_neg (by simpa using hex), List.filter_nil, List.append_nil]
          congr 1
          · apply List.map_congr_left
            intro p hp
            simp only [Function.comp]
            rw [hgid p hp, List.find?_append]
            by_cases he : p.id = r.id
            · rw [if_pos he]
              have : rows.find? (fun r => r.id = p.id) = none := by
                rw [List.find?_eq_none]
                intro x hx
                simpa using fun h => hnr x hx (h.trans he)
              rw [this, List.find?_cons_of_pos (by simpa using he.symm)]
              rfl
            · rw [if_neg he, List.find?_cons_of_neg (by simpa using fun h => he (Eq.symm h)), List.find?_nil, Option.or_none]
          · conv_lhs => rw [← List.map_id (List.filter _ rows)]
            apply List.map_congr_left
            intro x hx
            rw [id, if_neg (hnr x (List.mem_filter.1 hx).1)]
        rw [hnew, List.zipIdx_map, List.map_map]
        apply List.map_congr_left
        intro x _
        simp only [Function.comp, SX.updPost, hkr, hkey]
        by_cases he : x.1.id = r.id
        · rw [if_pos ⟨by rw [(hkey x).2 he]; simp, he⟩]
          simp [storedPost, SX.mkPost, he]
        · rw [if_neg (fun h => he h.2)]
          simp [storedPost, SX.mkPost, he]
      · exact absurd h hne
    · rcases hcases with ⟨⟨q, hq, -, h2⟩, -⟩ | ⟨-, e⟩
      · exfalso
        obtain ⟨⟨x, n⟩, hx, rfl⟩ := List.mem_map.1 hq
        have hx' := List.fst_mem_of_mem_zipIdx hx
        have he := (hkey (x, n)).1 h2
        dsimp only at hx' he
        rcases List.mem_append.1 hx' with hx' | hx'
        · obtain ⟨p, hp, rfl⟩ := List.mem_map.1 hx'
          rw [hgid p hp] at he
          exact hex (he ▸ List.mem_map.2 ⟨p, hp, rfl⟩)
        · exact hnr x (List.mem_filter.1 hx').1 he
      · have hmax : ((old.zipIdx.map (storedPost site 0)).map (·.docId)).foldr max 0 = old.length := by
          rw [List.map_map, show ((fun p : Post => p.docId) ∘ storedPost site 0) = fun x => x.2 + 1 by
            funext x; simp [storedPost, SX.mkPost], zipIdx_numbers, foldr_max_numbers]
        have hnew : posts.map (fun p => ((rows ++ [r]).find? (fun r => r.id = p.id)).getD p) ++
            (rows ++ [r]).filter (fun r => r.id ∉ posts.map (·.id)) = old ++ [r] := by
          rw [hold, List.filter_append, List.filter_cons_of_pos (by simpa using hex), List.filter_nil, ← List.append_assoc]
          congr 2
          apply List.map_congr_left
          intro p hp
          have he : r.id ≠ p.id := fun he => hex (he ▸ List.mem_map.2 ⟨p, hp, rfl⟩)
          rw [List.find?_append, List.find?_cons_of_neg (by simpa using he), List.find?_nil, Option.or_none]
        rw [e, hnew, hmax]
        clear_value old
        rw [List.zipIdx_append, List.map_append]
        simp [storedPost]

theorem Holds.step {url : String} {m : SiteHistory} {db : Db} (hw : SxWellformed db) (h : Holds url m (SX.putSite url db)) {d : Dump}
    (hd : Tidy d) : Holds url (m.add d) (SX.imported (SX.siteOf url db) d (SX.putSite url db)) := by
  have hsite : SX.siteOf url db = 1 := by
    obtain ⟨-, -, -, -, h5, h6, -⟩ := SX.putSite_spec url db
    rw [h.sites, List.mem_singleton] at h6
    exact congrArg Site.id h6
  have hwell := import_wellformed d url db hw
  rw [hsite] at hwell ⊢
  generalize SX.putSite url db = old at *
  have hkd := kinded_eq d.posts.rows
  rw [show d.posts.rows.filter _ = considered d from rfl] at hkd
  have htr : d.posts.rows.flatMap (SX.tagRow 1) = (dumpTags d).map (fun x => (⟨1, x.1.getD 0, x.2⟩ : SX.PostTag)) := by
    rw [tagRows_considered 1 d.posts.rows (fun r hr => hd.postIds r hr), dumpTags, List.map_flatMap]
    simp only [List.map_map]
    rfl
  have hdt : ∀ x ∈ dumpTags d, x.1 ≠ none := by
    intro x hx
    obtain ⟨r, hr, hx⟩ := List.mem_flatMap.1 hx
    obtain ⟨t, -, rfl⟩ := List.mem_map.1 hx
    exact hd.postIds r hr
  refine ⟨hwell, h.sites, ?_, ?_, ?_, ?_, ?_, ?_, ?_, ?_⟩
  · show SX.putPosts 1 (SX.kinded d.posts.rows) old.posts = _
    rw [hkd, h.posts]
    exact putPosts_merged 1 m.posts h.postIds (considered d) (h.posts ▸ postsOk h.well) hd.postIds hd.postsDistinct
  · show (SX.putAll Comment.key old.comments (d.comments.rows.map (SX.commentRow 1)) ++ [SX.commentRow 1 {}]).filter _ = _
    have hrow : ∀ x ∈ d.comments.rows.map (SX.commentRow 1), x.id ≠ none := by
      intro x hx
      obtain ⟨r, hr, rfl⟩ := List.mem_map.1 hx
      exact hd.commentIds r hr
    have hkey : ∀ c : Comment, c.id ≠ none → c.key ≠ none := by
      intro c hc
      obtain ⟨i, hi⟩ := Option.ne_none_iff_exists'.1 hc
      simp [SX.Comment.key, hi]
    rw [List.filter_append, show [SX.commentRow 1 {}].filter (fun c => decide (c.id ≠ none)) = [] from rfl, List.append_nil,
      filter_putAll_some _ _ _ (fun x hx => by simpa using hrow x hx), h.comments, putAll_replaces]
    · show _ = (m.comments.filter (fun c => c.id ∉ d.comments.rows.map (·.id)) ++ d.comments.rows).map (SX.commentRow 1)
      rw [List.map_append, List.filter_map]
      congr 2
      apply List.filter_congr
      intro c _
      have e1 : ∀ c : CommentRow, (SX.commentRow 1 c).key = c.id.map (fun i => (1, i)) := fun c => rfl
      simp only [Function.comp, decide_eq_decide, List.mem_map, exists_exists_and_eq_and, e1, not_iff_not]
      constructor
      · rintro ⟨a, ha, e⟩; exact ⟨a, ha, by cases h1 : a.id <;> cases h2 : c.id <;> simp_all⟩
      · rintro ⟨a, ha, e⟩; exact ⟨a, ha, by rw [e]⟩
    · exact fun x hx => hkey x (hrow x hx)
    · have e : (d.comments.rows.map (SX.commentRow 1)).map Comment.key =
          (d.comments.rows.map (·.id)).map (Option.map (fun i => (1, i))) := by
        simp only [List.map_map]; rfl
      rw [e]
      exact hd.commentsDistinct.map (fun a b h => by cases a <;> cases b <;> simp_all)
    · intro y hy
      rw [← h.comments] at hy
      exact hkey y (by simpa using (List.mem_filter.1 hy).2)
  · intro c hc
    have hc : c ∈ SX.putAll Comment.key old.comments (d.comments.rows.map (SX.commentRow 1)) ++ [SX.commentRow 1 {}] := hc
    rcases List.mem_append.1 hc with hc | hc
    · rcases SX.mem_putAll _ _ _ _ hc with hc | hc
      · exact h.commentSites c hc
      · obtain ⟨r, hr, rfl⟩ := List.mem_map.1 hc
        exact ⟨rfl, fun hn => absurd hn (hd.commentIds r hr)⟩
    · rw [List.mem_singleton.1 hc]; exact ⟨rfl, fun _ => rfl⟩
  · show (SX.putAll User.key old.users (d.users.rows.map (SX.userRow 1)) ++ [SX.userRow 1 {}]).filter _ = _
    have hrow : ∀ x ∈ d.users.rows.map (SX.userRow 1), x.id ≠ none := by
      intro x hx
      obtain ⟨r, hr, rfl⟩ := List.mem_map.1 hx
      exact hd.userIds r hr
    have hkey : ∀ c : User, c.id ≠ none → c.key ≠ none := by
      intro c hc
      obtain ⟨i, hi⟩ := Option.ne_none_iff_exists'.1 hc
      simp [SX.User.key, hi]
    rw [List.filter_append, show [SX.userRow 1 {}].filter (fun c => decide (c.id ≠ none)) = [] from rfl, List.append_nil,
      filter_putAll_some _ _ _ (fun x hx => by simpa using hrow x hx), h.users, putAll_replaces]
    · show _ = (m.users.filter (fun c => c.id ∉ d.users.rows.map (·.id)) ++ d.users.rows).map (SX.userRow 1)
      rw [List.map_append, List.filter_map]
      congr 2
      apply List.filter_congr
      intro c _
      have e1 : ∀ c : UserRow, (SX.userRow 1 c).key = c.id.map (fun i => (1, i)) := fun c => rfl
      simp only [Function.comp, decide_eq_decide, List.mem_map, exists_exists_and_eq_and, e1, not_iff_not]
      constructor
      · rintro ⟨a, ha, e⟩; exact ⟨a, ha, by cases h1 : a.id <;> cases h2 : c.id <;> simp_all⟩
      · rintro ⟨a, ha, e⟩; exact ⟨a, ha, by rw [e]⟩
    · exact fun x hx => hkey x (hrow x hx)
    · have e : (d.users.rows.map (SX.userRow 1)).map User.key =
          (d.users.rows.map (·.id)).map (Option.map (fun i => (1, i))) := by
        simp only [List.map_map]; rfl
      rw [e]
      exact hd.usersDistinct.map (fun a b h => by cases a <;> cases b <;> simp_all)
    · intro y hy
      rw [← h.users] at hy
      exact hkey y (by simpa using (List.mem_filter.1 hy).2)
  · intro c hc
    have hc : c ∈ SX.putAll User.key old.users (d.users.rows.map (SX.userRow 1)) ++ [SX.userRow 1 {}] := hc
    rcases List.mem_append.1 hc with hc | hc
    · rcases SX.mem_putAll _ _ _ _ hc with hc | hc
      · exact h.userSites c hc
      · obtain ⟨r, hr, rfl⟩ := List.mem_map.1 hc
        rfl
    · rw [List.mem_singleton.1 hc]; rfl
  · show SX.putAll SX.PostTag.key old.tags (d.posts.rows.flatMap (SX.tagRow 1)) = _
    have hinj : ∀ x y : Option Int × String, x.1 ≠ none → y.1 ≠ none →
        (⟨1, x.1.getD 0, x.2⟩ : SX.PostTag) = ⟨1, y.1.getD 0, y.2⟩ → x = y := by
      rintro ⟨a, s⟩ ⟨b, t⟩ ha hb e
      cases a <;> cases b <;> simp_all
    have hdn : ((d.posts.rows.flatMap (SX.tagRow 1)).map SX.PostTag.key).Nodup := by
      rw [tagRows_considered 1 d.posts.rows (fun r hr => hd.postIds r hr)]
      exact tagRows_nodup 1 (considered d) hd.postIds hd.postsDistinct hd.tagsDistinct
    rw [putAll_replaces]
    · show _ = (m.tags.filter (fun x => x ∉ dumpTags d) ++ dumpTags d).map _
      rw [htr, h.tags, List.map_append, List.filter_map]
      congr 2
      apply List.filter_congr
      intro x hx
      simp only [Function.comp, decide_eq_decide, List.mem_map, exists_exists_and_eq_and, SX.PostTag.key, Option.some.injEq, not_iff_not]
      constructor
      · rintro ⟨a, ha, e⟩; rw [← hinj a x (hdt a ha) (h.tagIds x hx) e]; exact ha
      · intro hm; exact ⟨x, hm, rfl⟩
    · intro x _; simp [SX.PostTag.key]
    · exact hdn
    · intro x _; simp [SX.PostTag.key]
  · intro p hp
    rcases List.mem_append.1 hp with hp | hp
    · obtain ⟨q, hq, rfl⟩ := List.mem_map.1 hp
      cases hf : (considered d).find? (fun r => r.id = q.id) with
      | none => exact h.postIds q hq
      | some y => exact hd.postIds y (List.mem_of_find?_eq_some hf)
    · exact hd.postIds p (List.mem_filter.1 hp).1
  · intro x hx
    rcases List.mem_append.1 hx with hx | hx
    · exact h.tagIds x (List.mem_filter.1 hx).1
    · exact hdt x hx

theorem Holds.name {url : String} {m : SiteHistory} {db : Db} (h : Holds url m db) (u : Option Int) :
    SX.displayName db 1 u = nameAmong m.users u := by
  cases u with
  | none => rfl
  | some u =>
    have e : (db.users.filter (fun x => x.key = some (1, u))).head? = (m.users.find? (fun x => x.id = some u)).map (SX.userRow 1) := by
      rw [filter_within db.users (fun x => x.id ≠ none) (fun x => x.key = some (1, u)) (by
        intro x hx
        simp only [decide_eq_true_eq] at hx ⊢
        intro hn
        simp [SX.User.key, hn] at hx), h.users, find_filter, List.find?_map]
      congr 2
      funext x
      have : (SX.userRow 1 x).key = some (1, u) ↔ x.id = some u := by
        cases hi : x.id <;> simp [SX.User.key, SX.userRow, hi]
      simp only [Function.comp, this]
    simp only [SX.displayName, nameAmong, e]
    cases m.users.find? (fun x => decide (x.id = some u)) <;> rfl

theorem Holds.docs {url : String} {m : SiteHistory} {db : Db} (h : Holds url m db) {n : Nat} {r : PostRow} (hn : m.posts[n]? = some r) :
    docOf db (n + 1) = .ok (m.doc url r) := by
  have hmem : storedPost 1 0 (r, n) ∈ db.posts := by
    rw [h.posts]; exact List.mem_map.2 ⟨_, List.mk_mem_zipIdx_iff_getElem?.2 hn, rfl⟩
  have hst : (db.sites.filter (fun s => s.id = 1)).head? = some ⟨1, url⟩ := by rw [h.sites]; rfl
  have hid := h.postIds r (List.mem_of_getElem? hn)
  unfold docOf
  rw [docId_filter (postsOk h.well) hmem (k := n + 1) (by simp [storedPost, SX.mkPost])]
  dsimp only [storedPost, SX.mkPost]
  rw [hst]
  dsimp only
  rw [h.name]
  simp only [SiteHistory.doc, SX.Post.tagPost, Except.ok.injEq, Doc.mk.injEq, true_and]
  constructor
  · rw [h.tags, List.filter_map, List.map_map]
    have : m.tags.filter ((fun t : SX.PostTag => decide (t.site = 1 ∧ some t.post = r.parent.or r.id)) ∘
        fun x => (⟨1, x.1.getD 0, x.2⟩ : SX.PostTag)) = m.tags.filter (fun x => x.1 = r.parent.or r.id) := by
      apply List.filter_congr
      intro x hx
      obtain ⟨i, hi⟩ := Option.ne_none_iff_exists'.1 (h.tagIds x hx)
      simp [hi]
    exact congrArg (List.map (fun x => x.2)) this
  · have e : db.comments.filter (fun c => c.site = 1 ∧ c.post ≠ none ∧ c.post = r.id) =
        (m.comments.filter (fun c => c.post = r.id)).map (SX.commentRow 1) := by
      rw [show (m.comments.filter (fun c => c.post = r.id)).map (SX.commentRow 1) =
        (m.comments.map (SX.commentRow 1)).filter (fun c => c.post = r.id) by rw [List.filter_map]; rfl, ← h.comments, List.filter_filter]
      apply List.filter_congr
      intro c hc
      obtain ⟨h1, h2⟩ := h.commentSites c hc
      rw [Bool.eq_iff_iff]
      simp only [Bool.and_eq_true, decide_eq_true_eq]
      constructor
      · rintro ⟨-, a, b⟩; exact ⟨b, fun hn => a (h2 hn)⟩
      · rintro ⟨b, a⟩; exact ⟨h1, b ▸ hid, b⟩
    rw [e, List.map_map]
    apply List.map_congr_left
    intro c _
    simp only [Function.comp, SX.commentRow, h.name]

theorem addSites_same (url : String) (dumps : List Dump) (hd : ∀ d ∈ dumps, Tidy d) (m : SiteHistory) (db : Db) (hw : SxWellformed db)
    (h : Holds url m (SX.putSite url db)) :
    ∃ sx, Pipeline.addSites (dumps.map (fun d => (d, url))) db = (sx, .ok ()) ∧ Holds url (dumps.foldl SiteHistory.add m) (SX.putSite url sx) ∧
      (dumps ≠ [] → SX.putSite url sx = sx) := by
  induction dumps generalizing m db with
  | nil => exact ⟨db, rfl, h, fun hne => absurd rfl hne⟩
  | cons d dumps ih =>
    have hx := hd d (by simp)
    have hs := h.step hw hx
    have hput : SX.putSite url (SX.imported (SX.siteOf url db) d (SX.putSite url db)) = SX.imported (SX.siteOf url db) d (SX.putSite url db) := by
      unfold SX.putSite
      rw [if_pos]
      have := hs.sites
      unfold SX.putSite at this
      rw [this]
      simp
    obtain ⟨sx, h1, h2, h3⟩ := ih (fun d hd' => hd d (by simp [hd'])) (m.add d) _ hs.well (by rw [hput]; exact hs)
    refine ⟨sx, ?_, h2, fun _ => ?_⟩
    · rw [List.map_cons, Pipeline.addSites, addSite_ok d url db hx]
      exact h1
    · by_cases hr : dumps = []
      · subst hr
        simp only [List.map_nil, Pipeline.addSites, Prod.mk.injEq, and_true] at h1
        rw [← h1]; exact hput
      · exact h3 hr

/-- **C82.** `stackexchange-corpus add-site` on a new corpus file for any number of tidy dumps of the same site, one after the other,
succeeds each time, and the corpus then has exactly the documents of `SiteHistory.add`: a post of a later dump replaces the one
with its id under the same key, new posts get the next keys, comments, users and tags are replaced or added, and nothing goes. -/
theorem updates_import (url : String) (dumps : List Dump) (hd : ∀ d ∈ dumps, Tidy d) :
    let sx := Pipeline.addSites (dumps.map (fun d => (d, url))) {}
    let m := dumps.foldl SiteHistory.add {}
    sx.2 = .ok () ∧ SX.keys id sx.1 = (List.range m.posts.length).map (· + 1) ∧
      SX.docs id sx.1 none = (m.posts.zipIdx.map (fun x => (x.2 + 1, m.doc url x.1)), none) := by
  intro sx m
  cases dumps with
  | nil => exact ⟨rfl, rfl, rfl⟩
  | cons d0 rest =>
  have hw0 : SxWellformed {} := ⟨by simp, by simp, List.Pairwise.nil, by simp, by simp⟩
  have h0 : Holds url {} (SX.putSite url {}) := by
    refine ⟨⟨by simp [SX.putSite], by simp [SX.putSite], List.Pairwise.nil, by simp [SX.putSite], by simp [SX.putSite]⟩, rfl, rfl, rfl, ?_, rfl, ?_, rfl, ?_, ?_⟩
    · intro c hc; cases hc
    · intro c hc; cases hc
    · intro c hc; cases hc
    · intro c hc; cases hc
  obtain ⟨db, hadd, hh, hput⟩ := addSites_same url (d0 :: rest) hd {} {} hw0 h0
  have hput := hput (by simp)
  rw [hput] at hh
  have hsx : sx = (db, .ok ()) := hadd
  rw [hsx]
  have hkeys : SX.keys id db = m.posts.zipIdx.map (fun x => x.2 + 1) := by
    simp only [SX.keys, id, hh.posts, List.map_map]
    apply List.map_congr_left
    intro x _
    simp [storedPost, SX.mkPost]
  refine ⟨rfl, ?_, ?_⟩
  · rw [hkeys, zipIdx_numbers]
  · simp only [SX.docs, Option.getD_none, hkeys]
    have : ∀ l : List (PostRow × Nat), (∀ x ∈ l, x ∈ m.posts.zipIdx) →
        SX.yields db (l.map (fun x => x.2 + 1)) = (l.map (fun x => (x.2 + 1, m.doc url x.1)), none) := by
      intro l
      induction l with
      | nil => intro _; rfl
      | cons a l ih =>
        intro hl
        have ha := List.mem_zipIdx_iff_getElem?.1 (hl a (by simp))
        rw [List.map_cons, SX.yields, hh.docs ha, ih (fun x hx => hl x (by simp [hx]))]
        rfl
    exact this _ (fun x hx => hx)

theorem replaced_id (d : Dump) (p : PostRow) : (((considered d).find? (fun r => r.id = p.id)).getD p).id = p.id := by
  cases hf : (considered d).find? (fun r => r.id = p.id) with
  | none => rfl
  | some y => simpa using List.find?_some hf

theorem history_ids (m : SiteHistory) (d : Dump) : (m.add d).posts.map (·.id) =
    m.posts.map (·.id) ++ ((considered d).filter (fun r => r.id ∉ m.posts.map (·.id))).map (·.id) := by
  show List.map _ (_ ++ _) = _
  rw [List.map_append, List.map_map]
  congr 1
  apply List.map_congr_left
  intro p _
  exact replaced_id d p

theorem history_distinct (dumps : List Dump) (hd : ∀ d ∈ dumps, Tidy d) :
    ((dumps.foldl SiteHistory.add {}).posts.map (·.id)).Nodup := by
  induction dumps using List.reverseRecOn with
  | nil => simp
  | append_singleton l d ih =>
    rw [List.foldl_append, List.foldl_cons, List.foldl_nil, history_ids, List.nodup_append]
    refine ⟨ih (fun d hd' => hd d (by simp [hd'])), ?_, ?_⟩
    · exact (hd d (by simp)).postsDistinct.sublist (List.Sublist.map _ List.filter_sublist)
    · intro a ha b hb e
      obtain ⟨r, hr, rfl⟩ := List.mem_map.1 hb
      have := (List.mem_filter.1 hr).2
      simp only [decide_eq_true_eq] at this
      exact this (e ▸ ha)

theorem history_row {m : SiteHistory} {d : Dump} (hd : Tidy d) {r : PostRow} (hr : r ∈ considered d) : r ∈ (m.add d).posts := by
  by_cases h : r.id ∈ m.posts.map (·.id)
  · obtain ⟨p, hp, e⟩ := List.mem_map.1 h
    refine List.mem_append.2 (.inl (List.mem_map.2 ⟨p, hp, ?_⟩))
    cases hf : (considered d).find? (fun r => r.id = p.id) with
    | none =>
      rw [List.find?_eq_none] at hf
      exact absurd e.symm (by simpa using hf r hr)
    | some y =>
      have hy : y.id = p.id := by simpa using List.find?_some hf
      exact List.inj_on_of_nodup_map hd.postsDistinct (List.mem_of_find?_eq_some hf) hr (hy.trans e)
  · exact List.mem_append.2 (.inr (List.mem_filter.2 ⟨hr, by simpa using h⟩))

/-- **C82, the newest dump.** After one more dump of the site, every document still has its key and belongs to the same post; its
tags are still there unless it now belongs to another question; a post that the dump does not have keeps title, body and date;
and every question and answer of the dump is served with what the dump says. -/
theorem updates_latest (url : String) (dumps : List Dump) (d : Dump) (hd : ∀ x ∈ dumps, Tidy x) (hd' : Tidy d) :
    let old := (SX.docs id (Pipeline.addSites (dumps.map (fun d => (d, url))) {}).1 none).1
    let new := (SX.docs id (Pipeline.addSites ((dumps ++ [d]).map (fun d => (d, url))) {}).1 none).1
    (∀ k doc, (k, doc) ∈ old → ∃ doc', (k, doc') ∈ new ∧ doc'.id = doc.id ∧
      (doc'.tagPost = doc.tagPost → ∀ t ∈ doc.tags, t ∈ doc'.tags) ∧
      ((∀ r ∈ considered d, r.id ≠ doc.id) → doc'.title = doc.title ∧ doc'.body = doc.body ∧ doc'.created = doc.created ∧
        doc'.kind = doc.kind ∧ doc'.tagPost = doc.tagPost)) ∧
    ∀ r ∈ considered d, ∃ k doc, (k, doc) ∈ new ∧ SaysRow d url r doc := by
  intro old new
  have hd2 : ∀ x ∈ dumps ++ [d], Tidy x := by
    intro x hx
    rcases List.mem_append.1 hx with hx | hx
    · exact hd x hx
    · rw [List.mem_singleton.1 hx]; exact hd'
  have hold : old = _ := congrArg Prod.fst (updates_import url dumps hd).2.2
  have hnew : new = _ := congrArg Prod.fst (updates_import url (dumps ++ [d]) hd2).2.2
  rw [List.foldl_append, List.foldl_cons, List.foldl_nil] at hnew
  generalize dumps.foldl SiteHistory.add {} = m at hold hnew
  rw [hold, hnew]
  dsimp only
  constructor
  · intro k doc hk
    obtain ⟨⟨p, n⟩, hx, e⟩ := List.mem_map.1 hk
    simp only [Prod.mk.injEq] at e
    obtain ⟨rfl, rfl⟩ := e
    have hn := List.mk_mem_zipIdx_iff_getElem?.1 hx
    have hlt := (List.getElem?_eq_some_iff.1 hn).1
    have hn' : (m.add d).posts[n]? = some (((considered d).find? (fun r => r.id = p.id)).getD p) := by
      show (_ ++ _)[n]? = _
      rw [List.getElem?_append_left (by rw [List.length_map]; exact hlt), List.getElem?_map, hn]
      rfl
    refine ⟨_, List.mem_map.2 ⟨(_, n), List.mk_mem_zipIdx_iff_getElem?.2 hn', rfl⟩, replaced_id d p, ?_, ?_⟩
    · intro ht t h
      simp only [SiteHistory.doc] at ht h ⊢
      rw [ht]
      obtain ⟨x, hx, rfl⟩ := List.mem_map.1 h
      obtain ⟨h1, h2⟩ := List.mem_filter.1 hx
      refine List.mem_map.2 ⟨x, List.mem_filter.2 ⟨?_, h2⟩, rfl⟩
      by_cases hm : x ∈ dumpTags d
      · exact List.mem_append.2 (.inr hm)
      · exact List.mem_append.2 (.inl (List.mem_filter.2 ⟨h1, by simpa using hm⟩))
    · intro hno
      have : (considered d).find? (fun r => r.id = p.id) = none := by
        rw [List.find?_eq_none]
        intro r hr
        simp only [decide_eq_true_eq]
        exact hno r hr
      rw [this]
      exact ⟨rfl, rfl, rfl, rfl, rfl⟩
  · intro r hr
    obtain ⟨n, hn⟩ := List.mem_iff_getElem?.1 (history_row (m := m) hd' hr)
    refine ⟨n + 1, _, List.mem_map.2 ⟨(r, n), List.mk_mem_zipIdx_iff_getElem?.2 hn, rfl⟩, ⟨rfl, rfl, rfl, rfl, rfl, rfl⟩, ?_, ?_⟩
    · intro t ht
      obtain ⟨q, hq, ht⟩ := List.mem_flatMap.1 ht
      by_cases he : q.id = r.parent.or r.id
      · rw [if_pos he] at ht
        refine List.mem_map.2 ⟨(q.id, t), List.mem_filter.2 ⟨List.mem_append.2 (.inr ?_), by simpa using he⟩, rfl⟩
        exact List.mem_flatMap.2 ⟨q, hq, List.mem_map.2 ⟨t, ht, rfl⟩⟩
      · rw [if_neg he] at ht; cases ht
    · intro c hc he
      refine ⟨nameAmong (m.add d).users c.user, List.mem_map.2 ⟨c, List.mem_filter.2 ⟨?_, by simpa using he⟩, rfl⟩⟩
      exact List.mem_append.2 (.inr hc)

/-- **C82, nothing removed.** If the newest dump still has the posts, comments, users and tags of the dumps before it, the corpus has
exactly its questions and answers, each with exactly what this dump says. -/
theorem updates_complete (url : String) (dumps : List Dump) (d : Dump) (hd : ∀ x ∈ dumps, Tidy x) (hd' : Tidy d)
    (hin : Includes d (dumps.foldl SiteHistory.add {})) :
    let sx := (Pipeline.addSites ((dumps ++ [d]).map (fun d => (d, url))) {}).1
    ∃ posts : List PostRow, posts.Perm (considered d) ∧
      SX.docs id sx none = (posts.zipIdx.map (fun x => (x.2 + 1, docFrom d url 1 x.1)), none) := by
  intro sx
  have hd2 : ∀ x ∈ dumps ++ [d], Tidy x := by
    intro x hx
    rcases List.mem_append.1 hx with hx | hx
    · exact hd x hx
    · rw [List.mem_singleton.1 hx]; exact hd'
  have hnew := (updates_import url (dumps ++ [d]) hd2).2.2
  have hdist := history_distinct (dumps ++ [d]) hd2
  rw [List.foldl_append, List.foldl_cons, List.foldl_nil] at hnew hdist
  generalize dumps.foldl SiteHistory.add {} = m at hnew hdist hin
  refine ⟨(m.add d).posts, ?_, ?_⟩
  · rw [List.perm_ext_iff_of_nodup (List.Nodup.of_map _ hdist) (List.Nodup.of_map _ hd'.postsDistinct)]
    intro r
    constructor
    · intro hr
      rcases List.mem_append.1 hr with hr | hr
      · obtain ⟨p, hp, rfl⟩ := List.mem_map.1 hr
        cases hf : (considered d).find? (fun r => r.id = p.id) with
        | none =>
          rw [List.find?_eq_none] at hf
          obtain ⟨x, hx, e⟩ := List.mem_map.1 (hin.posts p hp)
          exact absurd e (by simpa using hf x hx)
        | some y => exact List.mem_of_find?_eq_some hf
      · exact (List.mem_filter.1 hr).1
    · exact history_row hd'
  · have hu : (m.add d).users = d.users.rows := by
      show m.users.filter _ ++ _ = _
      rw [List.filter_eq_nil_iff.2, List.nil_append]
      intro x hx
      simpa using hin.users x hx
    have hc : (m.add d).comments = d.comments.rows := by
      show m.comments.filter _ ++ _ = _
      rw [List.filter_eq_nil_iff.2, List.nil_append]
      intro x hx
      simpa using hin.comments x hx
    have ht : (m.add d).tags = dumpTags d := by
      show m.tags.filter _ ++ _ = _
      rw [List.filter_eq_nil_iff.2, List.nil_append]
      intro x hx
      simpa using hin.tags x hx
    have hname : ∀ u, nameAmong (m.add d).users u = nameIn d u := by
      intro u
      rw [hu]
      cases u with
      | none => rfl
      | some u => simp only [nameAmong, nameIn]; cases d.users.rows.find? (fun x => decide (x.id = some u)) <;> rfl
    have hdoc : ∀ r, (m.add d).doc url r = docFrom d url 1 r := by
      intro r
      simp only [SiteHistory.doc, docFrom, hname, hc, ht, Doc.mk.injEq, true_and, and_true]
      rw [dumpTags, List.filter_flatMap, List.map_flatMap]
      congr 1
      funext q
      rw [List.filter_map, List.map_map]
      by_cases he : q.id = r.parent.or r.id
      · rw [if_pos he, List.filter_eq_self.2 (by intro t _; simpa using he)]
        simp [Function.comp_def]
      · rw [if_neg he, List.filter_eq_nil_iff.2 (by intro t _; simpa using he)]
        rfl
    simp only [hdoc] at hnew
    exact hnew

/-- A newer state of the site of `sampleDump`: the tag b and the comment are gone, and so is the answer; the title is another one. -/
def newerDump : Dump where
  posts := ⟨[{ typeId := some "1", id := some 5, owner := some 1, title := some "V", created := some "2020-01-01", tags := some "<a><c>" },
    { typeId := some "2", id := some 9, parent := some 5, body := some "D", created := some "2022-01-02" }], none⟩
  comments := ⟨[], none⟩
  users := ⟨[], none⟩

theorem newerDump_tidy : Tidy newerDump where
  posts := rfl
  comments := rfl
  users := rfl
  postIds := by decide +kernel
  commentIds := by decide +kernel
  userIds := by decide +kernel
  postsDistinct := by decide +kernel
  commentsDistinct := by decide +kernel
  usersDistinct := by decide +kernel
  tagsDistinct := by decide +kernel

set_option synthInstance.maxSize 4000 in
set_option synthInstance.maxHeartbeats 200000 in
/-- **C82, what does not go.** In general the corpus is not that of the newest dump: a deleted answer is still served, with its comment
and the name of a deleted user, and a removed tag is still there. -/
theorem updates_stale : Tidy sampleDump ∧ Tidy newerDump ∧
    (SX.docs id (Pipeline.addSites [(sampleDump, "site"), (newerDump, "site")] {}).1 none).1.map
      (fun x => (x.1, x.2.id, x.2.title, x.2.tags, x.2.name, x.2.comments)) =
    [(1, some 5, some "V", ["b", "a", "c"], "ann", []),
     (2, some 7, none, ["b", "a", "c"], "<Deleted User>", [("ann", some "c")]),
     (3, some 9, none, ["b", "a", "c"], "<Deleted User>", [])] :=
  ⟨sampleDump_tidy, newerDump_tidy, by decide +kernel⟩

/-- A state of the site that has everything `sampleDump` has, and more. -/
def grownDump : Dump where
  posts := ⟨[{ typeId := some "1", id := some 3, title := some "W", created := some "2019-01-01" },
    { typeId := some "1", id := some 5, owner := some 1, title := some "T", created := some "2020-01-01", tags := some "<b><c><a>" },
    { typeId := some "2", id := some 7, parent := some 5, body := some "BB", created := some "2020-01-02" }], none⟩
  comments := ⟨[{ id := some 1, post := some 7, user := some 1, text := some "c" }, { id := some 2, post := some 5, text := some "e" }], none⟩
  users := ⟨[{ id := some 1, name := some "ann" }, { id := some 2, name := some "eve" }], none⟩

theorem grownDump_tidy : Tidy grownDump where
  posts := rfl
  comments := rfl
  users := rfl
  postIds := by decide +kernel
  commentIds := by decide +kernel
  userIds := by decide +kernel
  postsDistinct := by decide +kernel
  commentsDistinct := by decide +kernel
  usersDistinct := by decide +kernel
  tagsDistinct := by decide +kernel

theorem grownDump_includes : Includes grownDump ([sampleDump].foldl SiteHistory.add {}) where
  posts := by decide +kernel
  comments := by decide +kernel
  users := by decide +kernel
  tags := by decide +kernel

set_option synthInstance.maxSize 4000 in
set_option synthInstance.maxHeartbeats 200000 in
/-- The older posts keep their keys, the new question comes last. -/
example : (SX.docs id (Pipeline.addSites ([sampleDump, grownDump].map (fun d => (d, "site"))) {}).1 none).1.map
      (fun x => (x.1, x.2.id, x.2.body, x.2.tags, x.2.comments)) =
    [(1, some 5, none, ["b", "c", "a"], [("<Deleted User>", some "e")]), (2, some 7, some "BB", ["b", "c", "a"], [("ann", some "c")]),
     (3, some 3, none, [], [])] := by decide +kernel

end Hyperreal.Props
