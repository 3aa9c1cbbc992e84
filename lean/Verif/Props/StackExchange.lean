import Verif.Lemmas.SxImport

/-!
# Properties of the StackExchange corpus (C42)
-/

namespace Hyperreal.Props
open Atomic Spec
open SX (Db Dump Post PostRow Comment User Site Doc addSiteData docOf)

theorem postsOk {db : Db} (h : SxWellformed db) : SX.PostsOk db.posts := ⟨h.docIds, h.keys⟩

private theorem upd_site {site : Nat} {rows : List (PostRow × String)} {p : Post} (h : p.site ≠ site) : SX.updAll site rows p = p := by
  induction rows using List.reverseRecOn with
  | nil => rfl
  | append_singleton rows r ih =>
    rw [SX.updAll_snoc, ih, SX.updPost, if_neg]
    rintro ⟨h1, h2⟩
    cases hk : p.key with
    | none => exact h1 hk
    | some k =>
      obtain ⟨s, i⟩ := k
      rw [hk] at h2
      have a := (SX.key_some hk).1
      have b := (SX.key_some h2.symm).1
      exact h (a.trans b.symm)

/-- The import keeps the constraints. -/
theorem import_wellformed (d : Dump) (url : String) (db : Db) (h : SxWellformed db) :
    SxWellformed (SX.imported (SX.siteOf url db) d (SX.putSite url db)) := by
  obtain ⟨h1, h2, h3, h4, h5, h6, extra, h7, h8⟩ := SX.putSite_spec url db
  have hok := SX.putPosts_ok (SX.siteOf url db) (SX.kinded d.posts.rows) db.posts (postsOk h)
  have hs : (SX.imported (SX.siteOf url db) d (SX.putSite url db)).sites = db.sites ++ extra := h7
  have hp : (SX.imported (SX.siteOf url db) d (SX.putSite url db)).posts =
      SX.putPosts (SX.siteOf url db) (SX.kinded d.posts.rows) db.posts := by
    show SX.putPosts _ _ (SX.putSite url db).posts = _; rw [h1]
  constructor
  · rw [hs]
    rcases h8 with rfl | ⟨rfl, hu⟩
    · simpa using h.siteIds
    · simp only [List.map_append, List.map_cons, List.map_nil]
      rw [List.nodup_append]
      refine ⟨h.siteIds, by simp, ?_⟩
      intro a ha b hb
      simp only [List.mem_singleton] at hb
      have := SX.le_foldr_max ha
      omega
  · rw [hs]
    rcases h8 with rfl | ⟨rfl, hu⟩
    · simpa using h.siteUrls
    · simp only [List.map_append, List.map_cons, List.map_nil]
      rw [List.nodup_append]
      refine ⟨h.siteUrls, by simp, ?_⟩
      intro a ha b hb
      simp only [List.mem_singleton] at hb
      rintro rfl
      exact hu (hb ▸ ha)
  · rw [hp]; exact hok.docIds
  · rw [hp]; exact hok.keys
  · rw [hp, hs]
    intro p hpm
    obtain ⟨fresh, e, hf⟩ := SX.putPosts_old (SX.siteOf url db) (SX.kinded d.posts.rows) db.posts (postsOk h)
    rw [e] at hpm
    rcases List.mem_append.1 hpm with hpm | hpm
    · obtain ⟨q, hq, rfl⟩ := List.mem_map.1 hpm
      obtain ⟨s, hs', e'⟩ := h.known q hq
      exact ⟨s, List.mem_append.2 (.inl hs'), by rw [e', (SX.updAll_same _ _ _).2.1]⟩
    · rw [h7] at h6
      exact ⟨_, h6, by rw [hf p hpm]⟩

/-- **C42, document ids.** When `add_site_data` returns, every post that was there is still there under the same `doc_id`,
site and post id; no `doc_id` belongs to two posts, neither now nor across the import; and the result became visible to others
in one step. -/
theorem import_doc_ids (fault : Nat → Option Err) (d : Dump) (url : String) (c : Conn Db) (db : Db) (hc : Idle c db)
    (h : SxWellformed db) (hr : (addSiteData fault d url c).2 = .ok ()) :
    ∃ new, Idle (addSiteData fault d url c).1 new ∧ SxWellformed new ∧
      (∀ p ∈ db.posts, ∃ p' ∈ new.posts, p'.docId = p.docId ∧ p'.site = p.site ∧ p'.id = p.id) ∧
      (∀ p ∈ db.posts, ∀ p' ∈ new.posts, p'.docId = p.docId → p'.site = p.site ∧ p'.id = p.id) ∧
      (new.posts.map (·.docId)).Nodup ∧
      (∃ log, (addSiteData fault d url c).1.seen = log ++ c.seen ∧ ∀ s ∈ log, s = db ∨ s = new) := by
  have hend := SX.addSiteData_end fault d url c db hc
  generalize addSiteData fault d url c = res at hr hend
  cases hend with
  | failed c' e log h1 h2 h3 h4 h5 => cases hr
  | done c' log h1 h2 h3 h4 =>
    have hw := import_wellformed d url db h
    have hp : (SX.imported (SX.siteOf url db) d (SX.putSite url db)).posts =
        SX.putPosts (SX.siteOf url db) (SX.kinded d.posts.rows) db.posts := by
      show SX.putPosts _ _ (SX.putSite url db).posts = _; rw [(SX.putSite_spec url db).1]
    obtain ⟨fresh, e, hf⟩ := SX.putPosts_old (SX.siteOf url db) (SX.kinded d.posts.rows) db.posts (postsOk h)
    have hkeep : ∀ p ∈ db.posts, ∃ p' ∈ (SX.imported (SX.siteOf url db) d (SX.putSite url db)).posts,
        p'.docId = p.docId ∧ p'.site = p.site ∧ p'.id = p.id := by
      intro p hpm
      obtain ⟨a, b, b', -⟩ := SX.updAll_same (SX.siteOf url db) (SX.kinded d.posts.rows) p
      exact ⟨_, by rw [hp, e]; exact List.mem_append.2 (.inl (List.mem_map.2 ⟨p, hpm, rfl⟩)), a, b, b'⟩
    refine ⟨_, h1, hw, hkeep, ?_, ?_, log, h3, h4⟩
    · intro p hpm p' hpm' e'
      obtain ⟨q, hq, a, b, b'⟩ := hkeep p hpm
      have : p' = q := (postsOk hw).unique hpm' hq (e'.trans a.symm)
      rw [this]; exact ⟨b, b'⟩
    · rw [List.Nodup, List.pairwise_map]
      exact hw.docIds.imp (fun h => by omega)

private theorem site_filter {l extra : List Site} {s : Nat} {x : Site}
    (h : (l.filter (fun y => y.id = s)).head? = some x) : ((l ++ extra).filter (fun y => y.id = s)).head? = some x := by
  rw [List.filter_append, List.head?_append, h]; rfl

theorem docId_filter {posts : List Post} (h : SX.PostsOk posts) {p : Post} (hp : p ∈ posts) {k : Nat} (hk : p.docId = k) :
    (posts.filter (fun x => x.docId = k)).head? = some p := by
  have hm : p ∈ posts.filter (fun x => x.docId = k) := List.mem_filter.2 ⟨hp, by simpa using hk⟩
  cases hf : posts.filter (fun x => x.docId = k) with
  | nil => rw [hf] at hm; cases hm
  | cons q l =>
    have hq : q ∈ posts.filter (fun x => x.docId = k) := by rw [hf]; simp
    obtain ⟨h1, h2⟩ := List.mem_filter.1 hq
    have h2 : q.docId = k := by simpa using h2
    rw [List.head?_cons, h.unique h1 hp (h2.trans hk.symm)]

private theorem display_other {db : Db} {d : Dump} {url : String} {s : Nat} (hs : s ≠ SX.siteOf url db) (u : Option Int) :
    SX.displayName (SX.imported (SX.siteOf url db) d (SX.putSite url db)) s u = SX.displayName db s u := by
  cases u with
  | none => rfl
  | some u =>
    have : (SX.imported (SX.siteOf url db) d (SX.putSite url db)).users.filter (fun x => x.key = some (s, u)) =
        db.users.filter (fun x => x.key = some (s, u)) := by
      show (SX.putAll User.key (SX.putSite url db).users _ ++ [_]).filter _ = _
      rw [(SX.putSite_spec url db).2.2.1, List.filter_append, SX.filter_putAll User.key]
      · simp [SX.userRow, SX.User.key]
      · intro x hx
        obtain ⟨r, -, rfl⟩ := List.mem_map.1 hx
        have : (SX.userRow (SX.siteOf url db) r).key ≠ some (s, u) := by
          intro e
          cases hi : r.id with
          | none => simp [SX.User.key, SX.userRow, hi] at e
          | some i => simp [SX.User.key, SX.userRow, hi] at e; exact hs e.1.symm
        simp [this]
      · intro x hx y hy _ e
        obtain ⟨r, -, rfl⟩ := List.mem_map.1 hx
        simp only [decide_eq_true_eq] at hy
        rw [hy] at e
        simp only [SX.User.key, SX.userRow] at e
        cases hr : r.id with
        | none => simp [hr] at e
        | some i => simp [hr] at e; exact hs e.1
    simp only [SX.displayName, this]

/-- **C42, other sites.** A document of another site is served exactly as before: same key, same content, tags, authors and
comments. -/
theorem import_other_sites (fault : Nat → Option Err) (d : Dump) (url : String) (c : Conn Db) (db : Db) (hc : Idle c db)
    (h : SxWellformed db) (hr : (addSiteData fault d url c).2 = .ok ()) :
    ∃ new, Idle (addSiteData fault d url c).1 new ∧
      ∀ k doc, docOf db k = .ok doc → doc.url ≠ url → docOf new k = .ok doc := by
  have hend := SX.addSiteData_end fault d url c db hc
  generalize addSiteData fault d url c = res at hr hend
  cases hend with
  | failed c' e log h1 h2 h3 h4 h5 => cases hr
  | done c' log h1 h2 h3 h4 =>
    refine ⟨_, h1, ?_⟩
    intro k doc hdoc hne
    have hw := import_wellformed d url db h
    obtain ⟨g1, g2, g3, g4, g5, g6, extra, g7, g8⟩ := SX.putSite_spec url db
    unfold docOf at hdoc
    cases hp : (db.posts.filter (fun p => p.docId = k)).head? with
    | none => rw [hp] at hdoc; cases hdoc
    | some p =>
    rw [hp] at hdoc
    dsimp only at hdoc
    cases hs : (db.sites.filter (fun s => s.id = p.site)).head? with
    | none => rw [hs] at hdoc; cases hdoc
    | some s =>
    rw [hs] at hdoc
    simp only [Except.ok.injEq] at hdoc
    have hpm := List.mem_of_mem_head? hp
    obtain ⟨hpm, hpk⟩ := List.mem_filter.1 hpm
    have hpk : p.docId = k := by simpa using hpk
    have hsm := List.mem_of_mem_head? hs
    obtain ⟨hsm, hsk⟩ := List.mem_filter.1 hsm
    have hsk : s.id = p.site := by simpa using hsk
    have hurl : s.url ≠ url := by rw [← hdoc] at hne; exact hne
    have hsite : p.site ≠ SX.siteOf url db := by
      intro e
      have hmem : s ∈ (SX.putSite url db).sites := by rw [g7]; exact List.mem_append.2 (.inl hsm)
      have := List.inj_on_of_nodup_map hw.siteIds hmem g6 (by rw [hsk, e])
      rw [this] at hurl
      exact hurl rfl
    have hnew : p ∈ (SX.imported (SX.siteOf url db) d (SX.putSite url db)).posts := by
      show p ∈ SX.putPosts _ _ (SX.putSite url db).posts
      rw [g1]
      obtain ⟨fresh, e, hf⟩ := SX.putPosts_old (SX.siteOf url db) (SX.kinded d.posts.rows) db.posts (postsOk h)
      rw [e]
      exact List.mem_append.2 (.inl (List.mem_map.2 ⟨p, hpm, upd_site hsite⟩))
    have hsites : ((SX.imported (SX.siteOf url db) d (SX.putSite url db)).sites.filter (fun x => x.id = p.site)).head? = some s := by
      show ((SX.putSite url db).sites.filter _).head? = _
      rw [g7]; exact site_filter hs
    unfold docOf
    rw [docId_filter (postsOk hw) hnew hpk]
    dsimp only
    rw [hsites]
    dsimp only
    rw [← hdoc, display_other hsite]
    have htags : (SX.imported (SX.siteOf url db) d (SX.putSite url db)).tags.filter
          (fun t => t.site = p.site ∧ some t.post = p.tagPost) =
        db.tags.filter (fun t => t.site = p.site ∧ some t.post = p.tagPost) := by
      show (SX.putAll SX.PostTag.key (SX.putSite url db).tags _).filter _ = _
      rw [g4]
      have hts : ∀ x ∈ d.posts.rows.flatMap (SX.tagRow (SX.siteOf url db)), x.site = SX.siteOf url db := by
        intro x hx
        obtain ⟨r, -, hx⟩ := List.mem_flatMap.1 hx
        unfold SX.tagRow at hx
        split at hx
        · obtain ⟨t, -, rfl⟩ := List.mem_map.1 hx; rfl
        · cases hx
      apply SX.filter_putAll SX.PostTag.key
      · intro x hx
        simp [hts x hx, hsite.symm]
      · intro x hx y hy _ e
        simp only [SX.PostTag.key, Option.some.injEq] at e
        simp only [decide_eq_true_eq] at hy
        rw [e, hts x hx] at hy
        exact hsite hy.1.symm
    have hcom : (SX.imported (SX.siteOf url db) d (SX.putSite url db)).comments.filter
          (fun c => c.site = p.site ∧ c.post ≠ none ∧ c.post = p.id) =
        db.comments.filter (fun c => c.site = p.site ∧ c.post ≠ none ∧ c.post = p.id) := by
      show (SX.putAll Comment.key (SX.putSite url db).comments _ ++ [_]).filter _ = _
      rw [g2, List.filter_append, SX.filter_putAll Comment.key]
      · simp [SX.commentRow]
      · intro x hx
        obtain ⟨r, -, rfl⟩ := List.mem_map.1 hx
        simp [SX.commentRow, hsite.symm]
      · intro x hx y hy hk e
        obtain ⟨r, -, rfl⟩ := List.mem_map.1 hx
        simp only [decide_eq_true_eq] at hy
        simp only [SX.Comment.key, SX.commentRow] at e hk
        cases hr : r.id with
        | none => simp [hr] at hk
        | some i =>
          cases hy' : y.id with
          | none => simp [hr, hy'] at e
          | some j => simp [hr, hy'] at e; exact hsite (hy.1.symm.trans e.1)
    rw [htags, hcom]
    congr 2
    apply List.map_congr_left
    intro x hx
    have hx := (List.mem_filter.1 hx).2
    simp only [decide_eq_true_eq] at hx
    rw [display_other (by rw [hx.1]; exact hsite)]

/-- **C42, idempotence.** After a successful import of a complete dump, importing the same dump again succeeds (if no
statement fails) and leaves `keys()` and every document served by `docs` unchanged. -/
theorem import_twice (fault fault' : Nat → Option Err) (d : Dump) (url : String) (c : Conn Db) (db : Db) (hc : Idle c db)
    (h : SxWellformed db) (hd : Complete d) (hr : (addSiteData fault d url c).2 = .ok ())
    (hr' : (addSiteData fault' d url (addSiteData fault d url c).1).2 = .ok ()) :
    ∃ one two, Idle (addSiteData fault d url c).1 one ∧ Idle (addSiteData fault' d url (addSiteData fault d url c).1).1 two ∧
      (∀ scan, SX.keys scan two = SX.keys scan one) ∧ (∀ k, docOf two k = docOf one k) ∧
      ∀ scan ks, SX.docs scan two ks = SX.docs scan one ks := by
  have hend := SX.addSiteData_end fault d url c db hc
  generalize addSiteData fault d url c = res at hr hend hr' ⊢
  cases hend with
  | failed c' e log h1 h2 h3 h4 h5 => cases hr
  | done c' log h1 h2 h3 h4 =>
  have hw := import_wellformed d url db h
  generalize hone : SX.imported (SX.siteOf url db) d (SX.putSite url db) = one at h1 h4 hw
  have hend' := SX.addSiteData_end fault' d url c' one h1
  dsimp only at hr' ⊢
  generalize addSiteData fault' d url c' = res at hr' hend' ⊢
  cases hend' with
  | failed c' e log h1 h2 h3 h4 h5 => cases hr'
  | done c'' log' h1' h2' h3' h4' =>
  obtain ⟨g1, g2, g3, g4, g5, g6, extra, g7, g8⟩ := SX.putSite_spec url db
  -- the site is already known
  have hsites : one.sites = (SX.putSite url db).sites := by rw [← hone]; rfl
  have hput : SX.putSite url one = one := by
    unfold SX.putSite
    rw [if_pos]
    exact List.any_eq_true.2 ⟨_, by rw [hsites]; exact g6, by simp⟩
  have hsite : SX.siteOf url one = SX.siteOf url db := by
    have : SX.siteId url one = SX.siteId url (SX.putSite url db) := by simp only [SX.siteId, hsites]
    simp only [SX.siteOf, hput, this]
  rw [hput, hsite] at h1'
  have hids : ∀ r ∈ SX.kinded d.posts.rows, r.1.id ≠ none := by
    intro r hr
    obtain ⟨x, hx, e⟩ := List.mem_filterMap.1 hr
    cases hk : x.kind with
    | none => simp [hk] at e
    | some k =>
      simp [hk] at e
      subst e
      refine hd.postIds x (List.mem_filter.2 ⟨hx, ?_⟩)
      unfold SX.PostRow.kind at hk
      simp only [decide_eq_true_eq]
      by_contra hn
      push Not at hn
      simp [hn.1, hn.2] at hk
  have hposts : (SX.imported (SX.siteOf url db) d one).posts = one.posts := by
    show SX.putPosts _ _ one.posts = one.posts
    rw [← hone]
    show SX.putPosts _ _ (SX.putPosts _ _ (SX.putSite url db).posts) = SX.putPosts _ _ (SX.putSite url db).posts
    rw [g1]
    exact SX.putPosts_twice _ _ _ (postsOk h) hids
  have htags : (SX.imported (SX.siteOf url db) d one).tags = one.tags := by
    have := SX.putAll_twice SX.PostTag.key (d.posts.rows.flatMap (SX.tagRow (SX.siteOf url db)))
      (fun x _ => by simp [SX.PostTag.key]) [] (by simp) (fun _ => true) (by simp) (SX.putSite url db).tags
    simp only [List.append_nil, List.filter_true] at this
    rw [← hone]
    exact this
  have hcom : ∀ q : Comment → Bool, q (SX.commentRow (SX.siteOf url db) {}) = false →
      (SX.imported (SX.siteOf url db) d one).comments.filter q = one.comments.filter q := by
    intro q hq
    have := SX.putAll_twice Comment.key (d.comments.rows.map (SX.commentRow (SX.siteOf url db)))
      (by
        intro x hx
        obtain ⟨r, hr, rfl⟩ := List.mem_map.1 hx
        obtain ⟨i, hi⟩ := Option.ne_none_iff_exists'.1 (hd.commentIds r hr)
        simp [SX.Comment.key, SX.commentRow, hi])
      [SX.commentRow (SX.siteOf url db) {}] (by simp [SX.Comment.key, SX.commentRow]) q (by simpa using hq)
      (SX.putSite url db).comments
    rw [← hone]
    exact this
  have huser : ∀ q : User → Bool, q (SX.userRow (SX.siteOf url db) {}) = false →
      (SX.imported (SX.siteOf url db) d one).users.filter q = one.users.filter q := by
    intro q hq
    have := SX.putAll_twice User.key (d.users.rows.map (SX.userRow (SX.siteOf url db)))
      (by
        intro x hx
        obtain ⟨r, hr, rfl⟩ := List.mem_map.1 hx
        obtain ⟨i, hi⟩ := Option.ne_none_iff_exists'.1 (hd.userIds r hr)
        simp [SX.User.key, SX.userRow, hi])
      [SX.userRow (SX.siteOf url db) {}] (by simp [SX.User.key, SX.userRow]) q (by simpa using hq)
      (SX.putSite url db).users
    rw [← hone]
    exact this
  have hname : ∀ s u, SX.displayName (SX.imported (SX.siteOf url db) d one) s u = SX.displayName one s u := by
    intro s u
    cases u with
    | none => rfl
    | some u => simp only [SX.displayName]; rw [huser _ (by simp [SX.User.key, SX.userRow])]
  have hdoc : ∀ k, docOf (SX.imported (SX.siteOf url db) d one) k = docOf one k := by
    intro k
    unfold docOf
    rw [hposts]
    have hst : (SX.imported (SX.siteOf url db) d one).sites = one.sites := rfl
    simp only [hst, htags, hname]
    split
    · rfl
    · split
      · rfl
      · rw [hcom _ (by simp [SX.commentRow])]
  have hy : ∀ ks, SX.yields (SX.imported (SX.siteOf url db) d one) ks = SX.yields one ks := by
    intro ks
    induction ks with
    | nil => rfl
    | cons k ks ih => simp only [SX.yields, hdoc, ih]
  refine ⟨one, _, h1, h1', ?_, hdoc, ?_⟩
  · intro scan; simp only [SX.keys, hposts]
  · intro scan ks; simp only [SX.docs, SX.keys, hposts, hy]

/-- **C42, failure.** When the import raises an `Exception`, nothing has changed and no other connection saw anything. -/
theorem import_failed_clean (fault : Nat → Option Err) (d : Dump) (url : String) (c : Conn Db) (db : Db) (hc : Idle c db)
    (hno : SxNoInterrupt fault d) (e : Err) (hr : (addSiteData fault d url c).2 = .error e) :
    Idle (addSiteData fault d url c).1 db ∧
      ∃ log, (addSiteData fault d url c).1.seen = log ++ c.seen ∧ ∀ s ∈ log, s = db := by
  have hend := SX.addSiteData_end fault d url c db hc
  generalize addSiteData fault d url c = res at hr hend
  cases hend with
  | done c' log h1 h2 h3 h4 => cases hr
  | failed c' e' log h1 h2 h3 h4 h5 =>
    simp only [Except.error.injEq] at hr
    subst hr
    refine ⟨h2 ?_, log, h3, h4⟩
    rcases h5 with ⟨n, h5⟩ | h5 | ⟨rfl, -⟩
    · exact hno.1 n e' h5
    · rcases SX.raise_exception _ _ _ h5 with rfl | h | h | h
      · rfl
      · exact hno.2.1 e' h
      · exact hno.2.2.1 e' h
      · exact hno.2.2.2 e' h
    · rfl

/-- A complete dump imports without exception when no statement fails. -/
theorem import_succeeds (d : Dump) (url : String) (c : Conn Db) (db : Db) (hc : Idle c db) (hd : Complete d) :
    (addSiteData (fun _ => none) d url c).2 = .ok () := by
  have hend := SX.addSiteData_end (fun _ => none) d url c db hc
  generalize addSiteData (fun _ => none) d url c = res at hend ⊢
  cases hend with
  | done => rfl
  | failed c' e log h1 h2 h3 h4 h5 =>
    rcases h5 with ⟨n, h5⟩ | h5 | ⟨-, h5⟩
    · cases h5
    · exact absurd h5 (SX.complete_noRaise _ d hd e)
    · exact absurd rfl h5

end Hyperreal.Props

namespace Hyperreal.Props
open Atomic Spec
open SX (Db Dump Post PostRow Comment User Site Doc addSiteData docOf)

theorem kind_considered (r : PostRow) :
    r.kind = if r.typeId = some "1" ∨ r.typeId = some "2" then some (if r.typeId = some "1" then "Question" else "Answer") else none := by
  unfold SX.PostRow.kind
  by_cases h1 : r.typeId = some "1" <;> by_cases h2 : r.typeId = some "2" <;> simp [h1, h2]

theorem kinded_eq (rows : List PostRow) : SX.kinded rows =
    (rows.filter (fun r => r.typeId = some "1" ∨ r.typeId = some "2")).map
      (fun r => (r, if r.typeId = some "1" then "Question" else "Answer")) := by
  induction rows with
  | nil => rfl
  | cons r rows ih =>
    have e : SX.kinded (r :: rows) = SX.kinded [r] ++ SX.kinded rows := by
      simp only [SX.kinded]; rw [← List.filterMap_append]; rfl
    rw [e, ih]
    have hk := kind_considered r
    by_cases h : r.typeId = some "1" ∨ r.typeId = some "2"
    · rw [List.filter_cons_of_pos (by simpa using h), List.map_cons]
      simp [SX.kinded, hk, h]
    · rw [List.filter_cons_of_neg (by simpa using h)]
      simp [SX.kinded, hk, h]

private theorem updAll_other (site : Nat) (rows : List (PostRow × String)) (p : Post)
    (h : ∀ r ∈ rows, p.key ≠ (SX.mkPost 0 site r.2 r.1).key) : SX.updAll site rows p = p := by
  induction rows using List.reverseRecOn with
  | nil => rfl
  | append_singleton rows r ih =>
    rw [SX.updAll_snoc, ih (fun r hr => h r (by simp [hr])), SX.updPost, if_neg]
    exact fun hh => h r (by simp) hh.2

private theorem updAll_append (site : Nat) (a b : List (PostRow × String)) (p : Post) :
    SX.updAll site (a ++ b) p = SX.updAll site b (SX.updAll site a p) := by
  simp [SX.updAll, List.foldl_append]

/-- **C42, content.** After a successful import, every question and answer of the dump (its last occurrence, should an id be
repeated) is served with the data of the dump, under the site's url. -/
theorem import_stores (fault : Nat → Option Err) (d : Dump) (url : String) (c : Conn Db) (db : Db) (hc : Idle c db)
    (h : SxWellformed db) (hr : (addSiteData fault d url c).2 = .ok ()) :
    ∃ new, Idle (addSiteData fault d url c).1 new ∧
      ∀ (before after : List PostRow) (r : PostRow), considered d = before ++ r :: after → r.id ≠ none →
        (∀ r' ∈ after, r'.id ≠ r.id) →
        ∃ p ∈ new.posts, Carries p r ∧ ∃ doc, docOf new p.docId = .ok doc ∧ doc.url = url ∧ doc.id = r.id ∧
          doc.title = r.title ∧ doc.body = r.body ∧ doc.created = r.created ∧ doc.kind = p.kind ∧
          doc.tagPost = r.parent.or r.id := by
  have hend := SX.addSiteData_end fault d url c db hc
  generalize addSiteData fault d url c = res at hr hend
  cases hend with
  | failed c' e log h1 h2 h3 h4 h5 => cases hr
  | done c' log h1 h2 h3 h4 =>
    refine ⟨_, h1, ?_⟩
    intro before after r hcons hid hlast
    have hw := import_wellformed d url db h
    obtain ⟨g1, g2, g3, g4, g5, g6, extra, g7, g8⟩ := SX.putSite_spec url db
    have hkd : SX.kinded d.posts.rows = before.map (fun r => (r, if r.typeId = some "1" then "Question" else "Answer")) ++
        (r, if r.typeId = some "1" then "Question" else "Answer") ::
        after.map (fun r => (r, if r.typeId = some "1" then "Question" else "Answer")) := by
      rw [kinded_eq, show d.posts.rows.filter _ = considered d from rfl, hcons]
      simp
    have hp : (SX.imported (SX.siteOf url db) d (SX.putSite url db)).posts =
        SX.putPosts (SX.siteOf url db) (SX.kinded d.posts.rows) db.posts := by
      show SX.putPosts _ _ (SX.putSite url db).posts = _; rw [g1]
    obtain ⟨q, hq, hk1, hk2⟩ := SX.putPosts_present (SX.siteOf url db) (SX.kinded d.posts.rows) db.posts (postsOk h)
      (r, if r.typeId = some "1" then "Question" else "Answer") (by rw [hkd]; simp) hid
    obtain ⟨i, hi⟩ := Option.ne_none_iff_exists'.1 hid
    have hkey : q.key = some (SX.siteOf url db, i) := by rw [hk2, SX.mkPost_key_eq, hi]; rfl
    obtain ⟨hqs, hqi⟩ := SX.key_some hkey
    have hfix : SX.updAll (SX.siteOf url db) (SX.kinded d.posts.rows) q = q := by
      rcases SX.updAll_fixed _ _ _ (postsOk h) q hq with h | h | h
      · exact h
      · exact absurd h.2 hk1
      · rw [hqi] at h; cases h
    have hqm : q = SX.mkPost q.docId (SX.siteOf url db) (if r.typeId = some "1" then "Question" else "Answer") r := by
      conv_lhs => rw [← hfix]
      rw [hkd, show ∀ (a : List (PostRow × String)) x b, a ++ x :: b = (a ++ [x]) ++ b by simp, updAll_append, SX.updAll_snoc]
      have hs := SX.updAll_same (SX.siteOf url db) (before.map (fun r => (r, if r.typeId = some "1" then "Question" else "Answer"))) q
      rw [SX.updPost, if_pos ⟨by rw [hs.2.2.2]; exact hk1, by rw [hs.2.2.2]; exact hk2⟩, hs.1]
      apply updAll_other
      intro x hx e
      obtain ⟨y, hy, rfl⟩ := List.mem_map.1 hx
      rw [SX.mkPost_key_eq, SX.mkPost_key_eq, hi] at e
      cases hyi : y.id with
      | none => simp [hyi] at e
      | some j => simp [hyi] at e; exact hlast y hy (by rw [hyi, hi, e])
    have hrc : r.typeId = some "1" ∨ r.typeId = some "2" := by
      have : r ∈ considered d := by rw [hcons]; simp
      simpa using (List.mem_filter.1 this).2
    refine ⟨q, by rw [hp]; exact hq, ?_, ?_⟩
    · rw [hqm]
      refine ⟨rfl, rfl, rfl, rfl, rfl, rfl, rfl, ?_⟩
      by_cases h1 : r.typeId = some "1"
      · exact .inl ⟨h1, by simp [SX.mkPost, h1]⟩
      · rcases hrc with h | h
        · exact absurd h h1
        · exact .inr ⟨h, by simp [SX.mkPost, h]⟩
    · have hmem : q ∈ (SX.imported (SX.siteOf url db) d (SX.putSite url db)).posts := by rw [hp]; exact hq
      have hsite : ∃ s, ((SX.imported (SX.siteOf url db) d (SX.putSite url db)).sites.filter (fun s => s.id = q.site)).head? = some s ∧
          s.url = url := by
        have hm : (⟨SX.siteOf url db, url⟩ : Site) ∈ (SX.imported (SX.siteOf url db) d (SX.putSite url db)).sites := g6
        have hm' : (⟨SX.siteOf url db, url⟩ : Site) ∈
            (SX.imported (SX.siteOf url db) d (SX.putSite url db)).sites.filter (fun s => s.id = q.site) :=
          List.mem_filter.2 ⟨hm, by simp [hqs]⟩
        cases hf : (SX.imported (SX.siteOf url db) d (SX.putSite url db)).sites.filter (fun s => s.id = q.site) with
        | nil => rw [hf] at hm'; cases hm'
        | cons s l =>
          have hs : s ∈ (SX.imported (SX.siteOf url db) d (SX.putSite url db)).sites.filter (fun s => s.id = q.site) := by
            rw [hf]; simp
          obtain ⟨a, b⟩ := List.mem_filter.1 hs
          have b : s.id = q.site := by simpa using b
          refine ⟨s, rfl, ?_⟩
          rw [List.inj_on_of_nodup_map hw.siteIds a hm (by rw [b, hqs])]
      obtain ⟨s, hs1, hs2⟩ := hsite
      refine ⟨_, by rw [docOf, docId_filter (postsOk hw) hmem rfl]; dsimp only; rw [hs1], hs2, ?_⟩
      rw [hqm]
      exact ⟨rfl, rfl, rfl, rfl, rfl, rfl⟩

/-- The posts of a first import. -/
theorem putPosts_fresh (site : Nat) (rows : List (PostRow × String)) (hid : ∀ r ∈ rows, r.1.id ≠ none)
    (hn : (rows.map (·.1.id)).Nodup) :
    SX.putPosts site rows [] = rows.zipIdx.map (fun x => SX.mkPost (x.2 + 1) site x.1.2 x.1.1) := by
  induction rows using List.reverseRecOn with
  | nil => rfl
  | append_singleton rows r ih =>
    simp only [List.map_append, List.map_cons, List.map_nil, List.nodup_append, List.mem_singleton] at hn
    have ih := ih (fun r hr => hid r (by simp [hr])) hn.1
    have hmax : ∀ (rows : List (PostRow × String)) (k : Nat),
        (((rows.zipIdx k).map (fun x => SX.mkPost (x.2 + 1) site x.1.2 x.1.1)).map (·.docId)).foldr max 0 =
          if rows = [] then 0 else k + rows.length := by
      intro rows
      induction rows with
      | nil => intro k; rfl
      | cons t ts ih =>
        intro k
        simp only [List.zipIdx_cons, List.map_cons, List.foldr_cons]
        rw [ih (k + 1)]
        cases ts <;> simp [SX.mkPost]; omega
    rw [SX.putPosts_snoc]
    rcases SX.replacePost_cases site r.2 r.1 _ (SX.putPosts_ok site rows [] ⟨List.Pairwise.nil, by simp⟩) with
      ⟨⟨q, hq, h1, h2⟩, -⟩ | ⟨-, e⟩
    · exfalso
      rw [ih] at hq
      obtain ⟨⟨x, k⟩, hx, rfl⟩ := List.mem_map.1 hq
      have hx := List.fst_mem_of_mem_zipIdx hx
      rw [SX.mkPost_key_eq, SX.mkPost_key_eq] at h2
      have hid' := hid r (by simp)
      obtain ⟨i, hi⟩ := Option.ne_none_iff_exists'.1 hid'
      cases hxi : x.1.id with
      | none => simp [hxi, hi] at h2
      | some j =>
        simp [hxi, hi] at h2
        exact hn.2.2 x.1.id (List.mem_map.2 ⟨x, hx, rfl⟩) r.1.id rfl (by rw [hxi, hi, h2])
    · rw [e, ih, hmax rows 0, List.zipIdx_append, List.map_append]
      cases rows with
      | nil => rfl
      | cons a l => simp

theorem find_filter {α : Type} (q : α → Bool) (l : List α) : (l.filter q).head? = l.find? q := List.head?_filter

/-- The tags of a row. -/
def splitTagsOf (r : PostRow) : List String := SX.splitTags (r.tags.getD "")

theorem tagRows_considered (s : Nat) (rows : List PostRow)
    (hid : ∀ r ∈ rows.filter (fun r => r.typeId = some "1" ∨ r.typeId = some "2"), r.id ≠ none) :
    rows.flatMap (SX.tagRow s) = (rows.filter (fun r => r.typeId = some "1" ∨ r.typeId = some "2")).flatMap
      (fun r => (splitTagsOf r).map (fun t => (⟨s, r.id.getD 0, t⟩ : SX.PostTag))) := by
  induction rows with
  | nil => rfl
  | cons r rows ih =>
    have hk := kind_considered r
    by_cases h : r.typeId = some "1" ∨ r.typeId = some "2"
    · rw [List.filter_cons_of_pos (by simpa using h)] at hid ⊢
      obtain ⟨i, hi⟩ := Option.ne_none_iff_exists'.1 (hid r (by simp))
      rw [List.flatMap_cons, List.flatMap_cons, ih (fun x hx => hid x (List.mem_cons_of_mem _ hx))]
      congr 1
      rw [if_pos h] at hk
      simp [SX.tagRow, hk, hi, splitTagsOf]
    · rw [List.filter_cons_of_neg (by simpa using h)] at hid ⊢
      rw [List.flatMap_cons, ih hid]
      rw [if_neg h] at hk
      simp [SX.tagRow, hk]

theorem tagRows_nodup (s : Nat) (rows : List PostRow) (hid : ∀ r ∈ rows, r.id ≠ none) (hn : (rows.map (·.id)).Nodup)
    (ht : ∀ r ∈ rows, (SX.splitTags (r.tags.getD "")).Nodup) :
    ((rows.flatMap (fun r => (splitTagsOf r).map (fun t => (⟨s, r.id.getD 0, t⟩ : SX.PostTag)))).map SX.PostTag.key).Nodup := by
  have : (rows.flatMap (fun r => (splitTagsOf r).map (fun t => (⟨s, r.id.getD 0, t⟩ : SX.PostTag)))).Nodup := by
    induction rows with
    | nil => simp
    | cons r rows ih =>
      simp only [List.map_cons, List.nodup_cons] at hn
      rw [List.flatMap_cons, List.nodup_append]
      refine ⟨(ht r (by simp)).map (fun a b h => by simpa using h),
        ih (fun x hx => hid x (by simp [hx])) hn.2 (fun x hx => ht x (by simp [hx])), ?_⟩
      intro a ha b hb e
      obtain ⟨t, -, rfl⟩ := List.mem_map.1 ha
      obtain ⟨x, hx, hb⟩ := List.mem_flatMap.1 hb
      obtain ⟨t', -, rfl⟩ := List.mem_map.1 hb
      simp only [SX.PostTag.mk.injEq, true_and] at e
      obtain ⟨i, hi⟩ := Option.ne_none_iff_exists'.1 (hid r (by simp))
      obtain ⟨j, hj⟩ := Option.ne_none_iff_exists'.1 (hid x (by simp [hx]))
      rw [hi, hj] at e
      exact hn.1 (List.mem_map.2 ⟨x, hx, by rw [hi, hj]; simpa using e.1.symm⟩)
  exact this.map (fun a b h => by simpa [SX.PostTag.key] using h)

theorem tags_of (s : Nat) (rows : List PostRow) (hid : ∀ r ∈ rows, r.id ≠ none) (tp : Option Int) :
    ((rows.flatMap (fun r => (splitTagsOf r).map (fun t => (⟨s, r.id.getD 0, t⟩ : SX.PostTag)))).filter
      (fun t => t.site = s ∧ some t.post = tp)).map (·.tag) =
    rows.flatMap (fun q => if q.id = tp then SX.splitTags (q.tags.getD "") else []) := by
  induction rows with
  | nil => rfl
  | cons r rows ih =>
    rw [List.flatMap_cons, List.filter_append, List.map_append, ih (fun x hx => hid x (by simp [hx])), List.flatMap_cons]
    congr 1
    obtain ⟨i, hi⟩ := Option.ne_none_iff_exists'.1 (hid r (by simp))
    rw [List.filter_map, List.map_map]
    by_cases h : r.id = tp
    · rw [if_pos h, List.filter_eq_self.2 (by intro t _; simp [← h, hi])]
      simp [splitTagsOf, Function.comp_def]
    · rw [if_neg h, List.filter_eq_nil_iff.2]
      · rfl
      · intro t _
        simp only [Function.comp, true_and, decide_eq_true_eq]
        rw [hi] at h ⊢
        exact h

/-- The tables after the first import of a tidy dump. -/
theorem fresh_tables (d : Dump) (url : String) (hd : Tidy d) :
    (SX.imported 1 d { sites := [⟨1, url⟩] }).posts = (considered d).zipIdx.map (fun x =>
      SX.mkPost (x.2 + 1) 1 (if x.1.typeId = some "1" then "Question" else "Answer") x.1) ∧
    (SX.imported 1 d { sites := [⟨1, url⟩] }).comments = d.comments.rows.map (SX.commentRow 1) ++ [SX.commentRow 1 {}] ∧
    (SX.imported 1 d { sites := [⟨1, url⟩] }).users = d.users.rows.map (SX.userRow 1) ++ [SX.userRow 1 {}] ∧
    (SX.imported 1 d { sites := [⟨1, url⟩] }).tags =
      (considered d).flatMap (fun r => (splitTagsOf r).map (fun t => (⟨1, r.id.getD 0, t⟩ : SX.PostTag))) := by
  have hkd := kinded_eq d.posts.rows
  rw [show d.posts.rows.filter _ = considered d from rfl] at hkd
  have hposts : (SX.imported 1 d { sites := [⟨1, url⟩] }).posts = (considered d).zipIdx.map (fun x =>
      SX.mkPost (x.2 + 1) 1 (if x.1.typeId = some "1" then "Question" else "Answer") x.1) := by
    show SX.putPosts 1 (SX.kinded d.posts.rows) [] = _
    rw [hkd, putPosts_fresh]
    · rw [List.zipIdx_map, List.map_map]; rfl
    · intro r hr
      obtain ⟨x, hx, rfl⟩ := List.mem_map.1 hr
      exact hd.postIds x hx
    · rw [List.map_map]; exact hd.postsDistinct
  have hcom : (SX.imported 1 d { sites := [⟨1, url⟩] }).comments = d.comments.rows.map (SX.commentRow 1) ++ [SX.commentRow 1 {}] := by
    show SX.putAll Comment.key [] _ ++ _ = _
    rw [SX.putAll_nil]
    · intro x hx
      obtain ⟨r, hr, rfl⟩ := List.mem_map.1 hx
      obtain ⟨i, hi⟩ := Option.ne_none_iff_exists'.1 (hd.commentIds r hr)
      simp [SX.Comment.key, SX.commentRow, hi]
    · have e : (d.comments.rows.map (SX.commentRow 1)).map Comment.key =
          (d.comments.rows.map (·.id)).map (Option.map (fun i => (1, i))) := by
        simp only [List.map_map]; rfl
      rw [e]
      exact hd.commentsDistinct.map (fun a b h => by cases a <;> cases b <;> simp_all)
  have husers : (SX.imported 1 d { sites := [⟨1, url⟩] }).users = d.users.rows.map (SX.userRow 1) ++ [SX.userRow 1 {}] := by
    show SX.putAll User.key [] _ ++ _ = _
    rw [SX.putAll_nil]
    · intro x hx
      obtain ⟨r, hr, rfl⟩ := List.mem_map.1 hx
      obtain ⟨i, hi⟩ := Option.ne_none_iff_exists'.1 (hd.userIds r hr)
      simp [SX.User.key, SX.userRow, hi]
    · have e : (d.users.rows.map (SX.userRow 1)).map User.key =
          (d.users.rows.map (·.id)).map (Option.map (fun i => (1, i))) := by
        simp only [List.map_map]; rfl
      rw [e]
      exact hd.usersDistinct.map (fun a b h => by cases a <;> cases b <;> simp_all)
  have htagrows : d.posts.rows.flatMap (SX.tagRow 1) =
      (considered d).flatMap (fun r => (splitTagsOf r).map (fun t => (⟨1, r.id.getD 0, t⟩ : SX.PostTag))) := by
    exact tagRows_considered 1 d.posts.rows (fun r hr => hd.postIds r hr)
  have htags : (SX.imported 1 d { sites := [⟨1, url⟩] }).tags =
      (considered d).flatMap (fun r => (splitTagsOf r).map (fun t => (⟨1, r.id.getD 0, t⟩ : SX.PostTag))) := by
    show SX.putAll SX.PostTag.key [] _ = _
    rw [htagrows, SX.putAll_nil]
    · intro x _; simp [SX.PostTag.key]
    · exact tagRows_nodup 1 (considered d) hd.postIds hd.postsDistinct hd.tagsDistinct
  exact ⟨hposts, hcom, husers, htags⟩

/-- **C42, first import.** Importing a tidy dump into an empty database serves exactly the questions and answers of the
dump, in order, under the keys 1, …, n, with the tags of the question, the authors' names and the comments. -/
theorem import_fresh (fault : Nat → Option Err) (d : Dump) (url : String) (c : Conn Db) (hc : Idle c {}) (hd : Tidy d)
    (hr : (addSiteData fault d url c).2 = .ok ()) :
    ∃ new, Idle (addSiteData fault d url c).1 new ∧ SX.keys id new = (List.range (considered d).length).map (· + 1) ∧
      SX.docs id new none = ((considered d).zipIdx.map (fun x => (x.2 + 1, docFrom d url 1 x.1)), none) := by
  have hend := SX.addSiteData_end fault d url c {} hc
  generalize addSiteData fault d url c = res at hr hend
  cases hend with
  | failed c' e log h1 h2 h3 h4 h5 => cases hr
  | done c' log h1 h2 h3 h4 =>
  have hput : SX.putSite url {} = { sites := [⟨1, url⟩] } := rfl
  have hsite : SX.siteOf url {} = 1 := by simp [SX.siteOf, hput, SX.siteId]
  rw [hput, hsite] at h1
  refine ⟨_, h1, ?_⟩
  obtain ⟨hposts, hcom, husers, htags⟩ := fresh_tables d url hd
  have hname : ∀ u, SX.displayName (SX.imported 1 d { sites := [⟨1, url⟩] }) 1 u = nameIn d u := by
    intro u
    cases u with
    | none => rfl
    | some u =>
      simp only [SX.displayName, nameIn, find_filter, husers, List.find?_append, List.find?_map]
      have e1 : ((fun x : User => decide (x.key = some (1, u))) ∘ SX.userRow 1) = fun x => decide (x.id = some u) := by
        funext x
        have : (SX.userRow 1 x).key = some (1, u) ↔ x.id = some u := by
          cases hi : x.id <;> simp [SX.User.key, SX.userRow, hi]
        simp only [Function.comp, this]
      have e2 : [SX.userRow 1 {}].find? (fun x : User => decide (x.key = some (1, u))) = none := by
        simp [SX.User.key, SX.userRow]
      rw [e1, e2, Option.or_none]
      cases d.users.rows.find? (fun x => decide (x.id = some u)) <;> rfl
  have hok := import_wellformed d url {} ⟨by simp, by simp, List.Pairwise.nil, by simp, by simp⟩
  rw [hput, hsite] at hok
  have hdoc : ∀ x ∈ (considered d).zipIdx, docOf (SX.imported 1 d { sites := [⟨1, url⟩] }) (x.2 + 1) = .ok (docFrom d url 1 x.1) := by
    intro x hx
    have hxc := List.fst_mem_of_mem_zipIdx hx
    have hmem : SX.mkPost (x.2 + 1) 1 (if x.1.typeId = some "1" then "Question" else "Answer") x.1 ∈
        (SX.imported 1 d { sites := [⟨1, url⟩] }).posts := by
      rw [hposts]; exact List.mem_map.2 ⟨x, hx, rfl⟩
    have hst : ((SX.imported 1 d { sites := [⟨1, url⟩] }).sites.filter (fun s => s.id = 1)).head? = some ⟨1, url⟩ := rfl
    unfold docOf
    rw [docId_filter (postsOk hok) hmem (k := x.2 + 1) rfl]
    dsimp only [SX.mkPost]
    rw [hst]
    dsimp only
    rw [hname]
    simp only [docFrom, SX.Post.tagPost, Except.ok.injEq, Doc.mk.injEq, true_and]
    refine ⟨?_, ?_⟩
    · rw [htags]
      exact tags_of 1 (considered d) hd.postIds _
    · rw [hcom]
      obtain ⟨i, hi⟩ := Option.ne_none_iff_exists'.1 (hd.postIds x.1 hxc)
      rw [List.filter_append, show [SX.commentRow 1 {}].filter _ = [] by simp [SX.commentRow], List.append_nil,
        List.filter_map, List.map_map]
      have e : ((fun c : Comment => decide (c.site = 1 ∧ c.post ≠ none ∧ c.post = x.1.id)) ∘ SX.commentRow 1) =
          fun c => decide (c.post = x.1.id) := by
        funext c
        simp only [Function.comp, SX.commentRow, true_and, decide_eq_decide, hi]
        constructor
        · exact fun h => h.2
        · intro h; exact ⟨by rw [h]; simp, h⟩
      rw [e]
      apply List.map_congr_left
      intro c _
      simp only [Function.comp, SX.commentRow, hname]
  have hkeys : SX.keys id (SX.imported 1 d { sites := [⟨1, url⟩] }) = (considered d).zipIdx.map (fun x => x.2 + 1) := by
    simp only [SX.keys, id, hposts, List.map_map]; rfl
  refine ⟨?_, ?_⟩
  · rw [hkeys]
    apply List.ext_getElem?
    intro i
    simp only [List.getElem?_map, List.getElem?_zipIdx, List.getElem?_range]
    by_cases hi : i < (considered d).length <;> simp [hi]
  · simp only [SX.docs, Option.getD_none, hkeys]
    have : ∀ l : List (PostRow × Nat), (∀ x ∈ l, x ∈ (considered d).zipIdx) →
        SX.yields (SX.imported 1 d { sites := [⟨1, url⟩] }) (l.map (fun x => x.2 + 1)) =
          (l.map (fun x => (x.2 + 1, docFrom d url 1 x.1)), none) := by
      intro l
      induction l with
      | nil => intro _; rfl
      | cons a l ih =>
        intro hl
        rw [List.map_cons, SX.yields, hdoc a (hl a (by simp)), ih (fun x hx => hl x (by simp [hx]))]
        rfl
    exact this _ (fun x hx => hx)

end Hyperreal.Props

/-! ## Examples -/

namespace Hyperreal.Props
open Atomic Spec
open SX (Db Dump Post PostRow Comment User Site Doc addSiteData docOf)

/-- A dump: a question with two tags, an answer, a tag wiki (skipped), a comment and a user. -/
def sampleDump : Dump where
  posts := ⟨[{ typeId := some "1", id := some 5, owner := some 1, title := some "T", created := some "2020-01-01", tags := some "<a><b>" },
    { typeId := some "5", id := some 6 },
    { typeId := some "2", id := some 7, parent := some 5, body := some "B", created := some "2020-01-02" }], none⟩
  comments := ⟨[{ id := some 1, post := some 7, user := some 1, text := some "c" }], none⟩
  users := ⟨[{ id := some 1, name := some "ann" }], none⟩

theorem sampleDump_tidy : Tidy sampleDump where
  posts := rfl
  comments := rfl
  users := rfl
  postIds := by decide +kernel
  commentIds := by decide +kernel
  userIds := by decide +kernel
  postsDistinct := by decide +kernel
  commentsDistinct := by decide +kernel
  usersDistinct := by decide +kernel
  tagsDistinct := by decide +kernel

/-- A database with a post of another site, whose post id also occurs in the dump. -/
def sxDb : Db where
  sites := [⟨1, "other"⟩]
  posts := [⟨1, 1, some 5, none, none, none, some "old", some "2019-01-01", none, "Question"⟩]
  comments := [⟨1, some 1, some 5, none, some "hi", none⟩]

theorem sxDb_wellformed : SxWellformed sxDb where
  siteIds := by decide
  siteUrls := by decide
  docIds := by decide
  keys := by decide
  known := by decide

example : Idle (Conn.fresh sxDb) sxDb ∧ SxWellformed sxDb ∧ Complete sampleDump ∧
    (addSiteData (fun _ => none) sampleDump "site" (Conn.fresh sxDb)).2 = .ok () ∧
    (addSiteData (fun _ => none) sampleDump "site" (addSiteData (fun _ => none) sampleDump "site" (Conn.fresh sxDb)).1).2 = .ok () ∧
    considered sampleDump ≠ [] :=
  ⟨⟨rfl, rfl, rfl, rfl, rfl, rfl⟩, sxDb_wellformed, sampleDump_tidy.toComplete, rfl, rfl, by decide +kernel⟩

set_option synthInstance.maxSize 4000 in
set_option synthInstance.maxHeartbeats 200000 in
example : (SX.docs id (addSiteData (fun _ => none) sampleDump "site" (Conn.fresh sxDb)).1.committed none).1.map
      (fun x => (x.1, x.2.url, x.2.id, x.2.tags, x.2.name, x.2.comments)) =
    [(1, "other", some 5, [], "<Deleted User>", [("<Deleted User>", some "hi")]),
     (2, "site", some 5, ["a", "b"], "ann", []),
     (3, "site", some 7, ["a", "b"], "<Deleted User>", [("ann", some "c")])] := by decide +kernel

/-- A failing import: Comments.xml is cut off. -/
example : SxNoInterrupt (fun _ => none) { sampleDump with comments := ⟨[], some .valueError⟩ } ∧
    (addSiteData (fun _ => none) { sampleDump with comments := ⟨[], some .valueError⟩ } "site" (Conn.fresh sxDb)).2 =
      .error .valueError ∧
    (addSiteData (fun _ => none) { sampleDump with comments := ⟨[], some .valueError⟩ } "site" (Conn.fresh sxDb)).1.committed = sxDb :=
  ⟨⟨by simp, by simp [sampleDump], by simp; rfl, by simp [sampleDump]⟩, rfl, rfl⟩

/-- **C42, remark.** Every import adds a row without any data to the tables of comments and users (for the root elements of
the files); such rows are never served, but they pile up with every import. -/
theorem import_spurious_rows (fault : Nat → Option Err) (d : Dump) (url : String) (c : Conn Db) (db : Db) (hc : Idle c db)
    (hr : (addSiteData fault d url c).2 = .ok ()) :
    ∃ new site, Idle (addSiteData fault d url c).1 new ∧ (⟨site, none, none, none, none, none⟩ : Comment) ∈ new.comments ∧
      (⟨site, none, none⟩ : User) ∈ new.users ∧
      db.comments.countP (fun c => c.id = none) < new.comments.countP (fun c => c.id = none) := by
  have hend := SX.addSiteData_end fault d url c db hc
  generalize addSiteData fault d url c = res at hr hend
  cases hend with
  | failed c' e log h1 h2 h3 h4 h5 => cases hr
  | done c' log h1 h2 h3 h4 =>
    refine ⟨_, SX.siteOf url db, h1, ?_, ?_, ?_⟩
    · exact List.mem_append.2 (.inr (List.mem_singleton.2 rfl))
    · exact List.mem_append.2 (.inr (List.mem_singleton.2 rfl))
    · show _ < List.countP _ (SX.putAll Comment.key (SX.putSite url db).comments _ ++ [_])
      rw [(SX.putSite_spec url db).2.1, List.countP_append]
      have hstep : ∀ (l : List Comment) (x : Comment), l.countP (fun c => c.id = none) ≤
          (SX.replaceRow Comment.key l x).countP (fun c => c.id = none) := by
        intro l x
        unfold SX.replaceRow
        rw [List.countP_append]
        refine le_trans ?_ (Nat.le_add_right _ _)
        cases hk : x.key with
        | none => exact le_rfl
        | some k =>
          rw [List.countP_filter]
          apply le_of_eq
          apply List.countP_congr
          intro y _
          simp only [decide_eq_true_eq, Bool.and_eq_true]
          constructor
          · intro h; exact ⟨h, by simp [SX.Comment.key, h]⟩
          · exact fun h => h.1
      have : ∀ (rows l : List Comment), l.countP (fun c => c.id = none) ≤
          (SX.putAll Comment.key l rows).countP (fun c => c.id = none) := by
        intro rows
        induction rows with
        | nil => intro l; exact le_rfl
        | cons x rows ih => intro l; exact (hstep l x).trans (ih _)
      have := this (d.comments.rows.map (SX.commentRow (SX.siteOf url db))) db.comments
      have h1 : [SX.commentRow (SX.siteOf url db) {}].countP (fun c => c.id = none) = 1 := by simp [SX.commentRow]
      omega

/-- **C42, remark.** After an interrupt the transaction stays open, and a second attempt first commits the part that was
done (`executescript` commits): a database with some posts of the dump and none of its users is visible to others, although
neither call has returned normally. -/
theorem import_interrupt_then_retry : ∃ (d : Dump) (fault fault' : Nat → Option Err),
    (addSiteData fault d "site" (Conn.fresh {})).2 = .error .interrupt ∧
    (addSiteData fault d "site" (Conn.fresh {})).1.committed = {} ∧
    (addSiteData fault' d "site" (addSiteData fault d "site" (Conn.fresh {})).1).2 = .error .operational ∧
    (addSiteData fault' d "site" (addSiteData fault d "site" (Conn.fresh {})).1).1.committed.posts ≠ [] ∧
    (addSiteData fault' d "site" (addSiteData fault d "site" (Conn.fresh {})).1).1.committed.users = [] :=
  ⟨sampleDump, fun n => if n = 8 then some .interrupt else none, fun n => if n = 3 then some .operational else none,
    rfl, rfl, rfl, by decide +kernel, by decide +kernel⟩

end Hyperreal.Props
