import Verif.Lemmas.StackExchange

namespace Hyperreal.SX
open Atomic Spec

/-- The effect of the statements, exceptions ignored. -/
def applyActs (acts : List Act) (db : Db) : Db :=
  acts.foldl (fun db a => match a with | .sql f => f db | .raise _ => db) db

theorem applyActs_append (a b : List Act) (db : Db) : applyActs (a ++ b) db = applyActs b (applyActs a db) := by
  simp [applyActs, List.foldl_append]

theorem applyActs_cons (f : Db → Db) (b : List Act) (db : Db) : applyActs (.sql f :: b) db = applyActs b (f db) := rfl

/-- The rows of the posts that are considered, with their kind. -/
def kinded (rows : List PostRow) : List (PostRow × String) := rows.filterMap (fun r => r.kind.map (fun k => (r, k)))

/-- The tag rows of a post. -/
def tagRow (site : Nat) (r : PostRow) : List PostTag :=
  match r.kind, r.id with
  | some _, some i => (splitTags (r.tags.getD "")).map (fun t => ⟨site, i, t⟩)
  | _, _ => []

/-- The rows for `comment` and `User`. -/
def commentRow (site : Nat) (r : CommentRow) : Comment := ⟨site, r.id, r.post, r.user, r.text, r.license⟩
def userRow (site : Nat) (r : UserRow) : User := ⟨site, r.id, r.name⟩

/-- The database after a complete import. -/
def imported (site : Nat) (d : Dump) (db : Db) : Db :=
  { sites := db.sites
    posts := putPosts site (kinded d.posts.rows) db.posts
    comments := putAll Comment.key db.comments (d.comments.rows.map (commentRow site)) ++ [commentRow site {}]
    users := putAll User.key db.users (d.users.rows.map (userRow site)) ++ [userRow site {}]
    tags := putAll PostTag.key db.tags (d.posts.rows.flatMap (tagRow site)) }

theorem apply_tags (site : Nat) (i : Int) (ts : List String) : ∀ db : Db,
    applyActs (ts.map (fun t => Act.sql (putTag ⟨site, i, t⟩))) db =
      { db with tags := putAll PostTag.key db.tags (ts.map (fun t => ⟨site, i, t⟩)) } := by
  induction ts with
  | nil => intro db; rfl
  | cons t ts ih => intro db; rw [List.map_cons, applyActs_cons, ih]; rfl

theorem apply_post (site : Nat) (r : PostRow) (db : Db) (h : ∀ e, Act.raise e ∉ postActs site r) :
    applyActs (postActs site r) db =
      { db with posts := putPosts site (kinded [r]) db.posts, tags := putAll PostTag.key db.tags (tagRow site r) } := by
  unfold postActs at h ⊢
  cases hk : r.kind with
  | none => simp [kinded, tagRow, hk, putPosts, putAll, applyActs]
  | some k =>
    simp only [hk] at h ⊢
    rw [applyActs_cons]
    cases hi : r.id with
    | some i =>
      dsimp only
      rw [apply_tags]
      simp [kinded, tagRow, hk, hi, putPosts, putPost]
    | none =>
      have : splitTags (r.tags.getD "") = [] := by
        cases ht : splitTags (r.tags.getD "") with
        | nil => rfl
        | cons t ts => exact absurd (by simp [hi, ht]) (h .keyError)
      rw [this]
      simp [kinded, tagRow, hk, hi, putPosts, putAll, putPost, applyActs]

theorem apply_posts (site : Nat) (rows : List PostRow) : ∀ db : Db, (∀ e, Act.raise e ∉ rows.flatMap (postActs site)) →
    applyActs (rows.flatMap (postActs site)) db =
      { db with posts := putPosts site (kinded rows) db.posts,
                tags := putAll PostTag.key db.tags (rows.flatMap (tagRow site)) } := by
  induction rows with
  | nil => intro db _; rfl
  | cons r rows ih =>
    intro db h
    simp only [List.flatMap_cons, List.mem_append, not_or] at h
    rw [List.flatMap_cons, applyActs_append, apply_post site r db (fun e => (h e).1), ih _ (fun e => (h e).2)]
    have e1 : kinded (r :: rows) = kinded [r] ++ kinded rows := by
      simp only [kinded]; rw [← List.filterMap_append]; rfl
    rw [e1]
    simp [putPosts, putAll, List.foldl_append]

theorem apply_comments (site : Nat) (rows : List CommentRow) : ∀ db : Db,
    applyActs (rows.map (fun r => Act.sql (putComment site r))) db =
      { db with comments := putAll Comment.key db.comments (rows.map (commentRow site)) } := by
  induction rows with
  | nil => intro db; rfl
  | cons t ts ih => intro db; rw [List.map_cons, applyActs_cons, ih]; rfl

theorem apply_users (site : Nat) (rows : List UserRow) : ∀ db : Db,
    applyActs (rows.map (fun r => Act.sql (putUser site r))) db =
      { db with users := putAll User.key db.users (rows.map (userRow site)) } := by
  induction rows with
  | nil => intro db; rfl
  | cons t ts ih => intro db; rw [List.map_cons, applyActs_cons, ih]; rfl

theorem endActs_none {α : Type} (f : XmlFile α) (root : List Act) (h : ∀ e, Act.raise e ∉ endActs f root) :
    f.broken = none ∧ endActs f root = root := by
  unfold endActs at h ⊢
  cases hb : f.broken with
  | none => exact ⟨rfl, rfl⟩
  | some e => rw [hb] at h; exact absurd (by simp) (h e)

/-- Without exceptions the body does what `imported` says. -/
theorem body_apply (site : Nat) (d : Dump) (db : Db) (h : ∀ e, Act.raise e ∉ bodyActs site d) :
    applyActs (bodyActs site d) db = imported site d db := by
  unfold bodyActs at h ⊢
  simp only [List.mem_append, not_or] at h
  obtain ⟨-, h1⟩ := endActs_none d.posts [] (fun e => (h e).1.1.1.1.2)
  obtain ⟨-, h2⟩ := endActs_none d.comments [.sql (putComment site {})] (fun e => (h e).1.1.2)
  obtain ⟨-, h3⟩ := endActs_none d.users [.sql (putUser site {})] (fun e => (h e).2)
  rw [h1, h2, h3]
  simp only [applyActs_append]
  rw [apply_posts site _ db (fun e => (h e).1.1.1.1.1)]
  rw [show ∀ x, applyActs [] x = x from fun _ => rfl, apply_comments, apply_users]
  rfl

/-- A complete dump raises nothing. -/
theorem complete_noRaise (site : Nat) (d : Dump) (h : Complete d) : ∀ e, Act.raise e ∉ bodyActs site d := by
  intro e he
  unfold bodyActs endActs at he
  rw [h.posts, h.comments, h.users] at he
  simp only [List.mem_append, List.mem_flatMap, List.mem_map, List.mem_singleton, List.not_mem_nil, or_false, reduceCtorEq,
    and_false, exists_false] at he
  obtain ⟨r, hr, he⟩ := he
  unfold postActs at he
  cases hk : r.kind with
  | none => simp [hk] at he
  | some k =>
    have hc : r ∈ considered d := by
      refine List.mem_filter.2 ⟨hr, ?_⟩
      unfold PostRow.kind at hk
      simp only [decide_eq_true_eq]
      by_contra hn
      push Not at hn
      simp [hn.1, hn.2] at hk
    obtain ⟨i, hi⟩ := Option.ne_none_iff_exists'.1 (h.postIds r hc)
    simp [hk, hi] at he

/-- The exceptions in the body come from the files or are `KeyError`s. -/
theorem raise_exception (site : Nat) (d : Dump) (e : Err) (h : Act.raise e ∈ bodyActs site d) :
    e = .keyError ∨ d.posts.broken = some e ∨ d.comments.broken = some e ∨ d.users.broken = some e := by
  have hend : ∀ {α : Type} (f : XmlFile α) (root : List Act), Act.raise e ∈ endActs f root →
      Act.raise e ∈ root ∨ f.broken = some e := by
    intro α f root h
    unfold endActs at h
    cases hb : f.broken with
    | none => rw [hb] at h; exact .inl h
    | some e' => rw [hb] at h; simp at h; exact .inr (by rw [h])
  unfold bodyActs at h
  simp only [List.mem_append, List.mem_flatMap, List.mem_map, reduceCtorEq, and_false, exists_false, or_false] at h
  rcases h with (((⟨r, hr, h⟩ | h) | h) | h)
  · unfold postActs at h
    cases hk : r.kind with
    | none => simp [hk] at h
    | some k =>
      cases hi : r.id with
      | none => simp [hk, hi] at h; exact .inl h.2
      | some i => simp [hk, hi] at h
  · rcases hend _ _ h with h | h
    · cases h
    · exact .inr (.inl h)
  · rcases hend _ _ h with h | h
    · simp at h
    · exact .inr (.inr (.inl h))
  · rcases hend _ _ h with h | h
    · simp at h
    · exact .inr (.inr (.inr h))

/-- The statements inside a transaction. -/
theorem runActs_inside (fault : Nat → Option Err) (acts : List Act) : ∀ (n : Nat) (c : Conn Db), c.inTxn = true →
    ∃ w m, (runActs fault n acts c).1 = c.after w false m ∧
      (((runActs fault n acts c).2 = none ∧ (∀ e, Act.raise e ∉ acts) ∧ w = applyActs acts c.work) ∨
        ∃ e, (runActs fault n acts c).2 = some e ∧ (Act.raise e ∈ acts ∨ ∃ k, fault k = some e)) := by
  induction acts with
  | nil => intro n c _; exact ⟨c.work, 0, by simp [runActs, Conn.after], .inl ⟨rfl, by simp, rfl⟩⟩
  | cons a acts ih =>
    intro n c hc
    cases a with
    | raise e => exact ⟨c.work, 0, by simp [runActs, Conn.after], .inr ⟨e, rfl, .inl (by simp)⟩⟩
    | sql f =>
      cases hf : fault n with
      | some e => exact ⟨c.work, 1, by simp [runActs, hf, log_eq_after], .inr ⟨e, by simp [runActs, hf], .inr ⟨n, hf⟩⟩⟩
      | none =>
        have hx : (c.exec (fun db => Except.ok (f db, ()))).1 = c.after (f c.work) false 1 := by
          simp [Conn.exec, hc, setWork_log]
        obtain ⟨w, m, e1, e2⟩ := ih (n + 1) (c.after (f c.work) false 1) hc
        have hr : runActs fault n (.sql f :: acts) c = runActs fault (n + 1) acts (c.after (f c.work) false 1) := by
          simp [runActs, hf, hx]
        rw [hr]
        refine ⟨w, m + 1, by rw [e1, after_after]; rfl, ?_⟩
        rcases e2 with ⟨e2, e3, e4⟩ | ⟨e, e2, e3⟩
        · exact .inl ⟨e2, by simpa using e3, by rw [e4]; rfl⟩
        · refine .inr ⟨e, e2, ?_⟩
          rcases e3 with e3 | e3
          · exact .inl (by simp [e3])
          · exact .inr e3

end Hyperreal.SX

namespace Hyperreal.SX
open Atomic Spec

/-- The id of the site after it was put. -/
def siteOf (url : String) (db : Db) : Nat :=
  match siteId url (putSite url db) with
  | .ok s => s
  | .error _ => 0

theorem putSite_spec (url : String) (db : Db) :
    (putSite url db).posts = db.posts ∧ (putSite url db).comments = db.comments ∧ (putSite url db).users = db.users ∧
    (putSite url db).tags = db.tags ∧ siteId url (putSite url db) = .ok (siteOf url db) ∧
    (⟨siteOf url db, url⟩ : Site) ∈ (putSite url db).sites ∧
    ∃ extra, (putSite url db).sites = db.sites ++ extra ∧
      (extra = [] ∨ (extra = [⟨(db.sites.map (·.id)).foldr max 0 + 1, url⟩] ∧ url ∉ db.sites.map (·.url))) := by
  have key : siteId url (putSite url db) = .ok (siteOf url db) ∧ (⟨siteOf url db, url⟩ : Site) ∈ (putSite url db).sites := by
    have hex : ∃ s ∈ (putSite url db).sites, s.url = url := by
      unfold putSite
      split
      · next h =>
        obtain ⟨s, hs, h⟩ := List.any_eq_true.1 h
        exact ⟨s, hs, by simpa using h⟩
      · exact ⟨⟨_, url⟩, List.mem_append.2 (.inr (List.mem_singleton.2 rfl)), rfl⟩
    obtain ⟨s, hs, hu⟩ := hex
    have hmem : s ∈ (putSite url db).sites.filter (fun s => s.url = url) := List.mem_filter.2 ⟨hs, by simpa using hu⟩
    cases hf : (putSite url db).sites.filter (fun s => s.url = url) with
    | nil => rw [hf] at hmem; cases hmem
    | cons t l =>
      have ht : t ∈ (putSite url db).sites.filter (fun s => s.url = url) := by rw [hf]; simp
      obtain ⟨h1, h2⟩ := List.mem_filter.1 ht
      have h2 : t.url = url := by simpa using h2
      have e : siteId url (putSite url db) = .ok t.id := by simp [siteId, hf]
      refine ⟨by simp only [siteOf, e], ?_⟩
      simp only [siteOf, e]
      have : (⟨t.id, url⟩ : Site) = t := by rw [← h2]
      rw [this]
      exact h1
  refine ⟨?_, ?_, ?_, ?_, key.1, key.2, ?_⟩
  · unfold putSite; split <;> rfl
  · unfold putSite; split <;> rfl
  · unfold putSite; split <;> rfl
  · unfold putSite; split <;> rfl
  · unfold putSite
    split
    · exact ⟨[], by simp, .inl rfl⟩
    · next h =>
      refine ⟨_, rfl, .inr ⟨rfl, ?_⟩⟩
      intro hm
      obtain ⟨s, hs, e⟩ := List.mem_map.1 hm
      exact h (List.any_eq_true.2 ⟨s, hs, by simpa using e⟩)

/-- How `add_site_data` can end. -/
inductive Ending (fault : Nat → Option Err) (d : Dump) (url : String) (c : Conn Db) (db : Db) :
    Conn Db × Except Err Unit → Prop
  | done (c' : Conn Db) (log : List Db) (h1 : Idle c' (imported (siteOf url db) d (putSite url db)))
      (h2 : ∀ e, Act.raise e ∉ bodyActs (siteOf url db) d) (h3 : c'.seen = log ++ c.seen)
      (h4 : ∀ s ∈ log, s = db ∨ s = imported (siteOf url db) d (putSite url db)) : Ending fault d url c db (c', .ok ())
  | failed (c' : Conn Db) (e : Err) (log : List Db) (h1 : c'.committed = db) (h2 : e.isException = true → Idle c' db)
      (h3 : c'.seen = log ++ c.seen) (h4 : ∀ s ∈ log, s = db)
      (h5 : (∃ n, fault n = some e) ∨ Act.raise e ∈ bodyActs (siteOf url db) d ∨ (e = .operational ∧ fault 2 ≠ none)) : Ending fault d url c db (c', .error e)

theorem addSiteData_end (fault : Nat → Option Err) (d : Dump) (url : String) (c : Conn Db) (db : Db) (hc : Idle c db) :
    Ending fault d url c db (addSiteData fault d url c) := by
  obtain ⟨cm, wk, st, bg, lv, ch, sn⟩ := c
  obtain ⟨h1, h2, h3, h4, h5, h6⟩ := hc
  dsimp only at h1 h2 h3 h4 h5 h6
  subst h1 h2 h3 h4 h5 h6
  unfold addSiteData
  cases f0 : fault 0 with
  | some e => exact .failed _ e [] rfl (fun _ => ⟨rfl, rfl, rfl, rfl, rfl, rfl⟩) rfl (by simp) (.inl ⟨0, f0⟩)
  | none =>
  have hnot : (⟨wk, wk, [], false, 0, false, sn⟩ : Conn Db).inTxn = false := rfl
  simp only [hnot, Bool.false_eq_true, if_false]
  cases f1 : fault 1 with
  | some e => exact .failed _ e [] rfl (fun _ => ⟨rfl, rfl, rfl, rfl, rfl, rfl⟩) rfl (by simp) (.inl ⟨1, f1⟩)
  | none =>
  -- how the body ends
  have body : (∃ m, importBody fault d url ⟨wk, wk, [], false, 0, false, sn⟩ =
        (⟨imported (siteOf url wk) d (putSite url wk), imported (siteOf url wk) d (putSite url wk), [], false, 0, false,
          imported (siteOf url wk) d (putSite url wk) :: (List.replicate m wk ++ sn)⟩, none) ∧
        ∀ e, Act.raise e ∉ bodyActs (siteOf url wk) d) ∨
      (∃ e w m, importBody fault d url ⟨wk, wk, [], false, 0, false, sn⟩ =
        (⟨wk, w, [], true, 0, false, List.replicate m wk ++ sn⟩, some e) ∧
        ((∃ n, fault n = some e) ∨ Act.raise e ∈ bodyActs (siteOf url wk) d ∨ (e = .operational ∧ fault 2 ≠ none))) ∨
      (∃ e, importBody fault d url ⟨wk, wk, [], false, 0, false, sn⟩ = (⟨wk, wk, [], false, 0, false, sn⟩, some e) ∧
        fault 2 = some e) := by
    unfold importBody
    cases f2 : fault 2 with
    | some e => exact .inr (.inr ⟨e, rfl, rfl⟩)
    | none =>
    have hb : (⟨wk, wk, [], false, 0, false, sn⟩ : Conn Db).begin = some ⟨wk, wk, [], true, 0, false, wk :: sn⟩ := rfl
    simp only [hb]
    cases f3 : fault 3 with
    | some e => exact .inr (.inl ⟨e, wk, 2, rfl, .inl ⟨3, f3⟩⟩)
    | none =>
    have hx : ((⟨wk, wk, [], true, 0, false, wk :: sn⟩ : Conn Db).exec (fun db => Except.ok (putSite url db, ()))).1 =
      ⟨wk, putSite url wk, [], true, 0, false, wk :: wk :: sn⟩ := rfl
    simp only [hx]
    cases f4 : fault 4 with
    | some e => exact .inr (.inl ⟨e, putSite url wk, 3, rfl, .inl ⟨4, f4⟩⟩)
    | none =>
    simp only [(putSite_spec url wk).2.2.2.2.1]
    obtain ⟨w, m, e1, e2⟩ := runActs_inside fault (bodyActs (siteOf url wk) d) 6
      (⟨wk, putSite url wk, [], true, 0, false, wk :: wk :: sn⟩ : Conn Db) rfl
    generalize runActs fault 6 (bodyActs (siteOf url wk) d) _ = res at e1 e2 ⊢
    obtain ⟨c', r⟩ := res
    dsimp only at e1 e2
    subst e1
    have hrep : List.replicate m wk ++ wk :: wk :: sn = List.replicate (m + 2) wk ++ sn := by
      rw [List.replicate_add, List.append_assoc]; rfl
    rcases e2 with ⟨rfl, e3, e4⟩ | ⟨e, rfl, e3⟩
    · rw [body_apply _ _ _ e3] at e4
      subst e4
      cases f5 : fault 5 with
      | some e =>
        refine .inr (.inl ⟨e, imported (siteOf url wk) d (putSite url wk), m + 2, ?_, .inl ⟨5, f5⟩⟩)
        simp only [Conn.after, hrep, Bool.or_false]
      | none =>
        refine .inl ⟨m + 2, ?_, e3⟩
        simp only [Conn.commit, Conn.after, Conn.inTxn, Bool.true_or, if_true, Conn.log, hrep, Bool.or_false]
    · refine .inr (.inl ⟨e, w, m + 2, ?_, ?_⟩)
      · simp only [Conn.after, hrep, Bool.or_false]
      · rcases e3 with e3 | e3
        · exact .inr (.inl e3)
        · exact .inl e3
  rcases body with ⟨m, hb, hno⟩ | ⟨e, w, m, hb, h7⟩ | ⟨e, hb, f2⟩
  · rw [hb]
    refine .done _ (imported (siteOf url wk) d (putSite url wk) :: List.replicate m wk) ⟨rfl, rfl, rfl, rfl, rfl, rfl⟩ hno rfl ?_
    intro s hs
    simp only [List.mem_cons, List.mem_replicate] at hs
    tauto
  · rw [hb]
    dsimp only
    by_cases he : e.isException = true
    · rw [if_pos he]
      refine .failed _ e (wk :: List.replicate m wk) rfl (fun _ => ⟨rfl, rfl, rfl, rfl, rfl, rfl⟩) rfl ?_ h7
      intro s hs
      simp only [List.mem_cons, List.mem_replicate] at hs
      tauto
    · rw [if_neg he]
      refine .failed _ e (List.replicate m wk) rfl (fun h => absurd h he) rfl ?_ h7
      intro s hs
      simp only [List.mem_replicate] at hs
      tauto
  · rw [hb]
    dsimp only
    by_cases he : e.isException = true
    · rw [if_pos he]
      -- `rollback` without a transaction raises
      have : (⟨wk, wk, [], false, 0, false, sn⟩ : Conn Db).rollback = none := rfl
      rw [this]
      dsimp only
      exact .failed _ _ [] rfl (fun _ => ⟨rfl, rfl, rfl, rfl, rfl, rfl⟩) rfl (by simp) (.inr (.inr ⟨rfl, by simp [f2]⟩))
    · rw [if_neg he]
      exact .failed _ e [] rfl (fun h => absurd h he) rfl (by simp) (.inl ⟨2, f2⟩)

end Hyperreal.SX
