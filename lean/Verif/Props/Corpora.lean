import Verif.Spec.Corpora
import Verif.Lemmas.Corpora
import Verif.Lemmas.StackExchange
import Verif.Props.PlainText
import Verif.Props.StackExchange
import Verif.Props.Datetime

/-!
# C48: which bundled corpora can be indexed
-/

namespace Hyperreal.Props
open Atomic Spec

/-! ## StackExchange -/

theorem sx_created (t : SX.TextOps) (s : String) (d : Datetime) (h : t.parseDate s = .ok d) (hv : d.valid = true) :
    ∃ a b c, SX.createdFields t (some s) = .ok [("created_day", .bag [some (.text a)]),
      ("created_month", .bag [some (.text b)]), ("created_year", .bag [some (.text c)])] := by
  simp only [SX.createdFields, h, round_ok d hv]
  exact ⟨_, _, _, rfl⟩

theorem sx_indexed (t : SX.TextOps) (db : SX.Db) (hw : SxWellformed db) (hr : SxReadable t db) (p : SX.Post) (hp : p ∈ db.posts) :
    ∃ f, SX.indexed t db (.int p.docId) = .ok f ∧ (f.map (·.1)).Nodup ∧ ∀ x vs, (x, Values.seq vs) ∈ f → none ∉ vs := by
  have h0 : SX.indexed t db (.int p.docId) = (match SX.docOf db p.docId with | .error e => .error e | .ok d => SX.features t d) := rfl
  obtain ⟨q, hq, hq1, hq2⟩ := head?_filter_some (p := fun q : SX.Post => decide (q.docId = p.docId)) hp (by simp)
  obtain ⟨s0, hs0, hs0'⟩ := hw.known q hq1
  obtain ⟨s, hs, hs1, hs2⟩ := head?_filter_some (p := fun s : SX.Site => decide (s.id = q.site)) hs0 (by simpa using hs0')
  have hdoc : ∃ d, SX.docOf db p.docId = .ok d ∧ d.created = q.created ∧ d.body = q.body ∧
      ∀ c ∈ d.comments, c.2 ≠ none := by
    unfold SX.docOf
    rw [hq]
    dsimp only
    rw [hs]
    refine ⟨_, rfl, rfl, rfl, ?_⟩
    intro c hc
    obtain ⟨c', hc', rfl⟩ := List.mem_map.1 hc
    obtain ⟨h1, h2⟩ := List.mem_filter.1 hc'
    simp only [decide_eq_true_eq] at h2
    exact hr.texts q hq1 c' h1 h2.1 h2.2.1 h2.2.2
  obtain ⟨d, hd, hcr, hbody, hcom⟩ := hdoc
  rw [h0, hd]
  dsimp only
  obtain ⟨str, dt, e1, e2, e3⟩ := hr.dates q hq1
  obtain ⟨x, y, z, hx⟩ := sx_created t str dt e2 e3
  have hparts : ∃ r, SX.bodyParts t d.body = .ok r := by
    rw [hbody]
    unfold SX.bodyParts
    cases hb : q.body with
    | none => exact ⟨_, rfl⟩
    | some b =>
      by_cases hbe : b = ""
      · exact ⟨([], ""), by simp [hbe]⟩
      · obtain ⟨r, hr'⟩ := hr.bodies q hq1 b hb hbe
        exact ⟨r, by simp [hbe, hr']⟩
  obtain ⟨r, hr'⟩ := hparts
  obtain ⟨cs, hcs⟩ := mapM_ok_of (SX.commentTokens t) d.comments (by
    intro c hc
    unfold SX.commentTokens
    cases h : c.2 with
    | none => exact absurd h (hcom c hc)
    | some s => exact ⟨_, rfl⟩)
  refine ⟨_, by unfold SX.features; rw [hr', hcs, hcr, e1, hx]; rfl, ?_, ?_⟩
  · simp only [List.map_append, List.map_cons, List.map_nil]
    decide
  · intro f vs h
    simp only [List.mem_append, List.mem_cons, List.not_mem_nil, or_false, Prod.mk.injEq, reduceCtorEq, and_false,
      false_or, Values.seq.injEq] at h
    rcases h with ⟨-, rfl⟩ | ⟨-, rfl⟩ | ⟨-, rfl⟩ <;> simp [SX.toks]

/-- A readable StackExchange database keeps the contract of a corpus, and never yields `None` in a sequence. -/
theorem sx_serves (t : SX.TextOps) (scan : List SX.Post → List SX.Post) (hscan : ∀ l, (scan l).Perm l) (sx : SX.Db)
    (hw : SxWellformed sx) (hr : SxReadable t sx) :
    Serves (SX.corpus t scan sx) (fun k => okOr (SX.indexed t sx k)) ∧
    (∀ p, Indexable (SX.corpus t scan sx) (fun k => okOr (SX.indexed t sx k)) p) ∧
    ∀ k, k ∈ (SX.corpus t scan sx).keys ↔ ∃ p ∈ sx.posts, k = .int p.docId := by
  have hk : ∀ k, k ∈ (SX.corpus t scan sx).keys ↔ ∃ p ∈ sx.posts, k = .int p.docId := by
    intro k
    constructor
    · intro hk
      obtain ⟨n, hn, rfl⟩ := List.mem_map.1 hk
      obtain ⟨p, hp, rfl⟩ := List.mem_map.1 hn
      exact ⟨p, (hscan _).mem_iff.1 hp, rfl⟩
    · rintro ⟨p, hp, rfl⟩
      exact List.mem_map.2 ⟨_, List.mem_map.2 ⟨p, (hscan _).mem_iff.2 hp, rfl⟩, rfl⟩
  have hnd : (SX.corpus t scan sx).keys.Nodup := by
    refine List.Nodup.map (fun a b h => by simpa using h) ?_
    refine (((hscan sx.posts).map (·.docId)).nodup_iff).2 ?_
    have := (List.pairwise_map (f := SX.Post.docId) (R := (· < ·))).2 hw.docIds
    exact this.imp Nat.ne_of_lt
  refine ⟨serves_of_lookup _ (SX.indexed t sx) hnd ?_, ?_, hk⟩
  · intro k hk'
    obtain ⟨p, hp, rfl⟩ := (hk k).1 hk'
    obtain ⟨f, h1, h2, -⟩ := sx_indexed t sx hw hr p hp
    exact ⟨f, h1, h2⟩
  · intro _ _ k hk' f vs h
    obtain ⟨p, hp, rfl⟩ := (hk k).1 hk'
    obtain ⟨g, h1, -, h3⟩ := sx_indexed t sx hw hr p hp
    exact h3 f vs (okOr_eq h1 ▸ h)

/-- **C48, StackExchange.** Indexing succeeds with and without positions: for every database whose documents can be read, in
whichever order SQLite scans the posts, every existing index and schedule. -/
theorem stack_exchange_indexes (t : SX.TextOps) (scan : List SX.Post → List SX.Post) (hscan : ∀ l, (scan l).Perm l) (sx : SX.Db)
    (hw : SxWellformed sx) (hr : SxReadable t sx) (hne : sx.posts ≠ []) (cfg : IndexCfg) (s : Schedule) (hf : Fair s)
    (hno : ∀ i, s.fault i = none) (c : Conn DB) (db : DB) (hc : Idle c db) (hp : Settled db) :
    (indexCall (SX.corpus t scan sx) cfg s c).2 = .ok () := by
  obtain ⟨h1, h2, -⟩ := sx_serves t scan hscan sx hw hr
  refine index_succeeds hc hp h1 (h2 _) hf ?_ hno
  simp only [SX.corpus, SX.keys, ne_eq, List.map_eq_nil_iff]
  intro h
  exact hne (List.perm_nil.1 (h ▸ (hscan sx.posts).symm))

theorem mapM_each {α β : Type} (f : α → Except Err β) : ∀ (l : List α) (r : List β), l.mapM f = .ok r → ∀ a ∈ l, ∃ b, f a = .ok b
  | [], _, _, _, ha => by cases ha
  | x :: l, r, h, a, ha => by
    rw [List.mapM_cons] at h
    cases hx : f x with
    | error e => rw [hx] at h; cases h
    | ok b =>
      cases hl : l.mapM f with
      | error e => rw [hx, hl] at h; cases h
      | ok bs =>
        rcases List.mem_cons.1 ha with rfl | ha
        · exact ⟨b, hx⟩
        · exact mapM_each f l bs hl a ha

/-- A document that cannot be looked up or indexed makes `index` fail. -/
theorem lookup_failure (keys : List Val) (look : Val → Except Err Features) (k : Val) (hk : k ∈ keys) (e : Err) (he : look k = .error e)
    (cfg : IndexCfg) (s : Schedule) (hf : Fair s) (hno : ∀ i, s.fault i = none) (c : Conn DB) (db : DB) (hc : Idle c db) :
    (indexCall ⟨keys, fun ks => ks.mapM look⟩ cfg s c).2 ≠ .ok () := by
  obtain ⟨h1, -, -, -⟩ := indexEvents_spec ⟨keys, fun ks => ks.mapM look⟩ cfg s hf
  obtain ⟨n, hn⟩ : ∃ n, (n, k) ∈ enumKeys keys := by
    obtain ⟨n, hn, e⟩ := List.mem_iff_getElem.1 hk
    exact ⟨n, List.mem_map.2 ⟨(k, n), List.mem_zipIdx_iff_getElem?.2 (by simp [hn, e]), rfl⟩⟩
  rw [← h1] at hn
  obtain ⟨b, hb, hm⟩ := List.mem_flatten.1 hn
  have hfail : ∃ e', indexDocs ⟨keys, fun ks => ks.mapM look⟩ cfg.positions b = .error e' := by
    cases hd : indexDocs ⟨keys, fun ks => ks.mapM look⟩ cfg.positions b with
    | error e' => exact ⟨e', rfl⟩
    | ok o =>
      exfalso
      unfold indexDocs at hd
      cases hb' : b.map (·.1) with
      | nil => rw [hb'] at hd; cases hd
      | cons first rest =>
        rw [hb'] at hd
        dsimp only at hd
        cases hm' : (b.map (·.2)).mapM look with
        | error e' => rw [hm'] at hd; cases hd
        | ok r =>
          obtain ⟨x, hx⟩ := mapM_each look _ _ hm' k (List.mem_map.2 ⟨_, hm, rfl⟩)
          rw [he] at hx; cases hx
  obtain ⟨e', he'⟩ := hfail
  obtain ⟨e2, h2, -⟩ := index_corpus_failure _ cfg s hf c db hc hno b e' hb he'
  rw [h2]; simp

/-- **C48, StackExchange, exactly.**  Indexing a collection that is not empty succeeds if and only if its documents can be
read: a post without a date or with one that is none, a body that cannot be parsed, or a comment of a post without text makes
it fail. -/
theorem stack_exchange_indexes_iff (t : SX.TextOps) (hdates : ∀ s d, t.parseDate s = .ok d → d.valid = true)
    (scan : List SX.Post → List SX.Post) (hscan : ∀ l, (scan l).Perm l) (sx : SX.Db) (hw : SxWellformed sx) (hne : sx.posts ≠ [])
    (cfg : IndexCfg) (s : Schedule) (hf : Fair s) (hno : ∀ i, s.fault i = none) (c : Conn DB) (db : DB) (hc : Idle c db)
    (hp : Settled db) : (indexCall (SX.corpus t scan sx) cfg s c).2 = .ok () ↔ SxReadable t sx := by
  refine ⟨fun h => ?_, fun h => stack_exchange_indexes t scan hscan sx hw h hne cfg s hf hno c db hc hp⟩
  have key : ∀ p ∈ sx.posts, ∃ d r cs x, SX.docOf sx p.docId = .ok d ∧ d.body = p.body ∧ d.created = p.created ∧
      d.comments = (sx.comments.filter (fun c => c.site = p.site ∧ c.post ≠ none ∧ c.post = p.id)).map
        (fun c => (SX.displayName sx c.site c.user, c.text)) ∧
      SX.bodyParts t d.body = .ok r ∧ d.comments.mapM (SX.commentTokens t) = .ok cs ∧ SX.createdFields t d.created = .ok x := by
    intro p hp'
    obtain ⟨q, hq, hq1, hq2⟩ := head?_filter_some (p := fun q : SX.Post => decide (q.docId = p.docId)) hp' (by simp)
    have hqp : q = p := by
      simp only [decide_eq_true_eq] at hq2
      have hnd : (sx.posts.map (·.docId)).Nodup :=
        ((List.pairwise_map (f := SX.Post.docId) (R := (· < ·))).2 hw.docIds).imp Nat.ne_of_lt
      exact List.inj_on_of_nodup_map hnd hq1 hp' hq2
    subst hqp
    obtain ⟨s0, hs0, hs0'⟩ := hw.known q hq1
    obtain ⟨s1, hs, hs1, hs2⟩ := head?_filter_some (p := fun s : SX.Site => decide (s.id = q.site)) hs0 (by simpa using hs0')
    obtain ⟨d, hd, e1, e2, e3⟩ : ∃ d, SX.docOf sx q.docId = .ok d ∧ d.body = q.body ∧ d.created = q.created ∧
        d.comments = (sx.comments.filter (fun c => c.site = q.site ∧ c.post ≠ none ∧ c.post = q.id)).map
          (fun c => (SX.displayName sx c.site c.user, c.text)) := by
      unfold SX.docOf
      rw [hq]
      dsimp only
      rw [hs]
      exact ⟨_, rfl, rfl, rfl, rfl⟩
    have hi : ∃ f, SX.indexed t sx (.int q.docId) = .ok f := by
      cases hi : SX.indexed t sx (.int q.docId) with
      | ok f => exact ⟨f, rfl⟩
      | error e =>
        refine absurd h (lookup_failure _ _ (.int q.docId) ?_ e hi cfg s hf hno c db hc)
        exact List.mem_map.2 ⟨_, List.mem_map.2 ⟨q, (hscan _).mem_iff.2 hq1, rfl⟩, rfl⟩
    obtain ⟨f, hi⟩ := hi
    have h0 : SX.indexed t sx (.int q.docId) = (match SX.docOf sx q.docId with | .error e => .error e | .ok d => SX.features t d) := rfl
    rw [h0, hd] at hi
    dsimp only at hi
    unfold SX.features at hi
    cases hr : SX.bodyParts t d.body with
    | error e => rw [hr] at hi; cases hi
    | ok r =>
      cases hcs : d.comments.mapM (SX.commentTokens t) with
      | error e => rw [hr, hcs] at hi; cases hi
      | ok cs =>
        cases hx : SX.createdFields t d.created with
        | error e => rw [hr, hcs, hx] at hi; cases hi
        | ok x => exact ⟨d, r, cs, x, hd, e1, e2, e3, hr, hcs, hx⟩
  constructor
  · intro p hp'
    obtain ⟨d, r, cs, x, -, -, e2, -, -, -, hx⟩ := key p hp'
    rw [e2] at hx
    unfold SX.createdFields at hx
    cases hcr : p.created with
    | none => rw [hcr] at hx; cases hx
    | some str =>
      rw [hcr] at hx
      dsimp only at hx
      cases hpd : t.parseDate str with
      | error e => rw [hpd] at hx; cases hx
      | ok dt => exact ⟨str, dt, rfl, hpd, hdates _ _ hpd⟩
  · intro p hp' b hb hbe
    obtain ⟨d, r, cs, x, -, e1, -, -, hr, -, -⟩ := key p hp'
    rw [e1, hb] at hr
    unfold SX.bodyParts at hr
    dsimp only at hr
    rw [if_neg hbe] at hr
    exact ⟨r, hr⟩
  · intro p hp' cm hcm g1 g2 g3 g4
    obtain ⟨d, r, cs, x, -, -, -, e3, -, hcs, -⟩ := key p hp'
    have hm : (SX.displayName sx cm.site cm.user, cm.text) ∈ d.comments := by
      rw [e3]
      exact List.mem_map.2 ⟨cm, List.mem_filter.2 ⟨hcm, decide_eq_true ⟨g1, g2, g3⟩⟩, rfl⟩
    obtain ⟨y, hy⟩ := mapM_each _ _ _ hcs _ hm
    rw [g4] at hy
    simp [SX.commentTokens] at hy

/-! ## Twittersphere -/

theorem tw_created (t : TW.TextOps) (s : String) (d : Datetime) (h : t.parseDate s = .ok d) (hv : d.valid = true) :
    ∃ m h' a b c, TW.createdFields t s = .ok [("created_minute", .seq [some (.text m)]), ("created_hour", .seq [some (.text h')]),
      ("created_day", .seq [some (.text a)]), ("created_month", .seq [some (.text b)]), ("created_year", .seq [some (.text c)])] := by
  simp only [TW.createdFields, h, round_ok d hv]
  exact ⟨_, _, _, _, _, rfl⟩

theorem tw_related (t : TW.TextOps) (db : TW.Db) (hr : TwReadable t db) (i : Option Int) :
    ((TW.relatedUser db i).getD none ≠ none) ↔ AuthorKnown db i := by
  unfold TW.relatedUser AuthorKnown
  cases i with
  | none => simp
  | some i =>
    dsimp only
    constructor
    · intro h
      cases h1 : (db.tweets.filter (fun t => (t.id : Int) = i)).head? with
      | none => simp [h1] at h
      | some tw =>
        rw [h1] at h
        dsimp only at h
        obtain ⟨a1, a2⟩ := head?_filter_mem h1
        simp only [decide_eq_true_eq] at a2
        cases h2 : (db.usersAtTime.filter (fun u => u.user = tw.user ∧ u.retrieved = tw.retrieved)).head? with
        | none => rw [h2] at h; simp at h
        | some u =>
          obtain ⟨b1, b2⟩ := head?_filter_mem h2
          simp only [decide_eq_true_eq] at b2
          refine ⟨tw, a1, by rw [a2], u, b1, b2.1, b2.2, ?_⟩
          rw [h2] at h
          simpa using h
    · rintro ⟨tw, h1, h2, u, h3, h4, h5, h6⟩
      simp only [Option.some.injEq] at h2
      obtain ⟨tw', e1, e2, e3⟩ := head?_filter_some (p := fun t : TW.Tweet => decide ((t.id : Int) = i)) h1 (by simp [h2])
      simp only [decide_eq_true_eq] at e3
      have : tw' = tw := List.inj_on_of_nodup_map hr.tweetIds e2 h1 (by omega)
      subst this
      rw [e1]
      dsimp only
      obtain ⟨u', f1, f2, f3⟩ := head?_filter_some
        (p := fun u : TW.UserRow => decide (u.user = tw'.user ∧ u.retrieved = tw'.retrieved)) h3 (by simp [h4, h5])
      simp only [decide_eq_true_eq] at f3
      have : u' = u := List.inj_on_of_nodup_map hr.profiles f2 h3 (by rw [f3.1, f3.2, h4, h5])
      subst this
      rw [f1]
      simpa using h6

theorem tw_none {α : Type} (x : Option α) (g : α → Val) : none ∉ [x.map g] ↔ x ≠ none := by
  cases x <;> simp

theorem tw_indexed (t : TW.TextOps) (db : TW.Db) (hr : TwReadable t db) (tw : TW.Tweet) (htw : tw ∈ db.tweets) :
    ∃ f, TW.indexed t db (.int tw.id) = .ok f ∧ (f.map (·.1)).Nodup ∧
      ((∀ x vs, (x, Values.seq vs) ∈ f → none ∉ vs) ↔ NothingMissing db tw) := by
  have h0 : TW.indexed t db (.int tw.id) = (match TW.docOf t db tw.id with | .error e => .error e | .ok d => TW.features t d) := rfl
  obtain ⟨tw', hq, hq1, hq2⟩ := head?_filter_some (p := fun q : TW.Tweet => decide (q.id = tw.id)) htw (by simp)
  simp only [decide_eq_true_eq] at hq2
  have : tw' = tw := List.inj_on_of_nodup_map hr.tweetIds hq1 htw hq2
  subst this
  obtain ⟨u0, hu0, hu0'⟩ := hr.users tw' htw
  obtain ⟨u, hu, hu1, hu2⟩ := head?_filter_some (p := fun u : TW.UserRow => decide (u.user = tw'.user)) hu0 (by simpa using hu0')
  simp only [decide_eq_true_eq] at hu2
  have hname : u.name ≠ none ↔ ∀ u ∈ db.usersLatest, u.user = tw'.user → u.name ≠ none := by
    constructor
    · intro h v hv1 hv2
      have : v = u := List.inj_on_of_nodup_map hr.latest hv1 hu1 (by rw [hv2, hu2])
      rw [this]; exact h
    · intro h
      exact h u hu1 hu2
  obtain ⟨doms, hdoms⟩ := mapM_ok_of t.hostname (TW.externalUrls t db tw') (by
    intro s hs
    obtain ⟨r, h1, h2⟩ := List.mem_filterMap.1 hs
    have h1' := (List.mem_filter.1 h1).1
    cases h3 : r.unwound.or (r.expanded.or r.url) with
    | none => simp [h3] at h2
    | some x =>
      simp only [h3] at h2
      have hx : x = s := by
        by_cases hi : t.internal x <;> simp [hi] at h2
        exact h2
      subst hx
      refine hr.urls r h1' (some x) ?_ x rfl
      cases ha : r.unwound with
      | some a => simp [ha] at h3; simp [h3]
      | none =>
        cases hb : r.expanded with
        | some b => simp [ha, hb] at h3; simp [h3]
        | none => simp [ha, hb] at h3; simp [h3])
  have hdoc : ∃ d, TW.docOf t db tw'.id = .ok d ∧ d.tweet = tw' ∧ (∀ h ∈ d.hashtags, h ≠ none) ∧ (∀ m ∈ d.mentions, m ≠ none) ∧
      d.username = u.name ∧ d.repliedToUser = TW.relatedUser db tw'.repliedTo ∧
      d.retweetedUser = TW.relatedUser db tw'.retweeted ∧ d.quotedUser = TW.relatedUser db tw'.quoted := by
    unfold TW.docOf
    rw [hq]
    dsimp only
    rw [hdoms]
    dsimp only
    rw [hu]
    refine ⟨_, rfl, rfl, ?_, ?_, rfl, rfl, rfl, rfl⟩
    · intro h hh
      obtain ⟨r, h1, rfl⟩ := List.mem_map.1 hh
      simpa using hr.hashtags r (List.mem_filter.1 h1).1
    · intro h hh
      obtain ⟨r, h1, rfl⟩ := List.mem_map.1 hh
      simpa using hr.mentions r (List.mem_filter.1 h1).1
  obtain ⟨d, hd, e1, e2, e3, e4, e5, e6, e7⟩ := hdoc
  rw [h0, hd]
  dsimp only
  obtain ⟨dt, g1, g2⟩ := hr.dates tw' htw
  obtain ⟨x1, x2, x3, x4, x5, hx⟩ := tw_created t _ dt g1 g2
  have hlow : ∀ l : List (Option String), (∀ x ∈ l, x ≠ none) → ∃ r, l.mapM (TW.lowered t) = .ok r := by
    intro l hl
    refine mapM_ok_of _ l ?_
    intro a ha
    cases a with
    | none => exact absurd rfl (hl _ ha)
    | some s => exact ⟨_, rfl⟩
  obtain ⟨tags, htags⟩ := hlow _ e2
  obtain ⟨ments, hments⟩ := hlow _ e3
  unfold TW.features
  rw [e1, hx]
  dsimp only
  by_cases hrt : tw'.retweeted = none
  · rw [if_pos hrt]
    unfold TW.originalFields
    rw [htags, hments]
    refine ⟨_, rfl, ?_, ?_⟩
    · simp only [List.map_append, List.map_cons, List.map_nil]
      decide
    · rw [NothingMissing, ← hname, ← tw_related t db hr tw'.quoted, ← tw_related t db hr tw'.repliedTo]
      simp only [TW.one, List.mem_append, List.mem_cons, List.not_mem_nil, or_false, Prod.mk.injEq, reduceCtorEq, and_false,
        false_or, Values.seq.injEq, e1, e4, e5, e7, hrt, ne_eq, not_true_eq_false, false_and, true_and]
      constructor
      · intro h
        refine ⟨?_, ?_, ?_, ?_⟩
        · exact (tw_none _ .text).1 (h "by" _ (.inl (.inr (.inr (.inl ⟨rfl, rfl⟩)))))
        · exact (tw_none _ .int).1 (h "conversation_id" _ (.inl (.inr (.inl ⟨rfl, rfl⟩))))
        · exact (tw_none _ .text).1 (h "quoted_user" _ (.inl (.inr (.inr (.inr (.inr (.inl ⟨rfl, rfl⟩)))))))
        · exact (tw_none _ .text).1 (h "replied_to_user" _ (.inl (.inr (.inr (.inr (.inr (.inr (.inr ⟨rfl, rfl⟩))))))))
      · rintro ⟨k1, k2, k3, k4⟩ x vs h
        have k5 : tw'.quoted ≠ none := fun hq => by simp [hq, TW.relatedUser] at k3
        have k6 : tw'.repliedTo ≠ none := fun hq => by simp [hq, TW.relatedUser] at k4
        rcases h with h | h
        · rcases h with ⟨-, rfl⟩ | ⟨-, rfl⟩ | ⟨-, rfl⟩ | ⟨-, rfl⟩ | ⟨-, rfl⟩ | ⟨-, rfl⟩ | ⟨-, rfl⟩
          · simp
          · exact (tw_none _ _).2 k2
          · exact (tw_none _ _).2 k1
          · exact (tw_none _ _).2 k5
          · exact (tw_none _ _).2 k3
          · exact (tw_none _ _).2 k6
          · exact (tw_none _ _).2 k4
        · rcases h with ⟨-, rfl⟩ | ⟨-, rfl⟩ | ⟨-, rfl⟩ | ⟨-, rfl⟩ | ⟨-, rfl⟩ <;> simp
  · rw [if_neg hrt]
    unfold TW.retweetFields
    refine ⟨_, rfl, ?_, ?_⟩
    · simp only [List.map_append, List.map_cons, List.map_nil]
      decide
    · rw [NothingMissing, ← hname, ← tw_related t db hr tw'.retweeted]
      simp only [TW.one, List.mem_append, List.mem_cons, List.not_mem_nil, or_false, Prod.mk.injEq, reduceCtorEq, and_false,
        false_or, Values.seq.injEq, e1, e4, e6, hrt, ne_eq, not_false_eq_true, false_and, true_and]
      constructor
      · intro h
        exact ⟨(tw_none _ .text).1 (h "by" _ (.inl (.inl ⟨rfl, rfl⟩))),
          (tw_none _ .text).1 (h "retweeted_user" _ (.inl (.inr (.inr ⟨rfl, rfl⟩))))⟩
      · rintro ⟨k1, k3⟩ x vs h
        rcases h with h | h
        · rcases h with ⟨-, rfl⟩ | ⟨-, rfl⟩ | ⟨-, rfl⟩
          · exact (tw_none _ _).2 k1
          · exact (tw_none _ _).2 hrt
          · exact (tw_none _ _).2 k3
        · rcases h with ⟨-, rfl⟩ | ⟨-, rfl⟩ | ⟨-, rfl⟩ | ⟨-, rfl⟩ | ⟨-, rfl⟩ <;> simp

/-- A readable Twittersphere database keeps the contract of a corpus; its keys are the directly collected tweets. -/
theorem tw_serves (t : TW.TextOps) (tw : TW.Db) (hr : TwReadable t tw) :
    Serves (TW.corpus t tw) (fun k => okOr (TW.indexed t tw k)) ∧
    ∀ k, k ∈ (TW.corpus t tw).keys ↔ ∃ x ∈ tw.tweets, x.id ∈ tw.direct ∧ k = .int x.id := by
  have hperm : (tw.direct.insertionSort (· ≤ ·)).Perm tw.direct := List.perm_insertionSort _ _
  have hk : ∀ k, k ∈ (TW.corpus t tw).keys ↔ ∃ x ∈ tw.tweets, x.id ∈ tw.direct ∧ k = .int x.id := by
    intro k
    constructor
    · intro hk
      obtain ⟨n, hn, rfl⟩ := List.mem_map.1 hk
      have hn' := hperm.mem_iff.1 hn
      obtain ⟨x, hx, rfl⟩ := hr.stored n hn'
      exact ⟨x, hx, hn', rfl⟩
    · rintro ⟨x, hx, hd, rfl⟩
      exact List.mem_map.2 ⟨x.id, hperm.mem_iff.2 hd, rfl⟩
  have hnd : (TW.corpus t tw).keys.Nodup :=
    List.Nodup.map (fun a b h => by simpa using h) (hperm.nodup_iff.2 hr.direct)
  refine ⟨serves_of_lookup _ (TW.indexed t tw) hnd ?_, hk⟩
  intro k hk'
  obtain ⟨x, hx, -, rfl⟩ := (hk k).1 hk'
  obtain ⟨f, h1, h2, -⟩ := tw_indexed t tw hr x hx
  exact ⟨f, h1, h2⟩

/-- Which collections can be indexed. -/
theorem tw_indexable (t : TW.TextOps) (tw : TW.Db) (hr : TwReadable t tw) (positions : Bool) :
    Indexable (TW.corpus t tw) (fun k => okOr (TW.indexed t tw k)) positions ↔
      (positions = true → ∀ i ∈ tw.direct, ∀ x ∈ tw.tweets, x.id = i → NothingMissing tw x) := by
  obtain ⟨hs, hk⟩ := tw_serves t tw hr
  constructor
  · rintro h hpos i hi x hx rfl
    obtain ⟨f, h1, -, h3⟩ := tw_indexed t tw hr x hx
    refine h3.1 ?_
    intro fld vs hm
    refine h hpos (.int x.id) ?_ fld vs ?_
    · exact (hk _).2 ⟨x, hx, hi, rfl⟩
    · show _ ∈ okOr _
      rw [okOr_eq h1]; exact hm
  · intro h hpos k hk' fld vs hm
    obtain ⟨x, hx, hd, rfl⟩ := (hk k).1 hk'
    obtain ⟨f, h1, -, h3⟩ := tw_indexed t tw hr x hx
    change _ ∈ okOr _ at hm
    rw [okOr_eq h1] at hm
    exact h3.2 (h hpos x.id hd x hx rfl) fld vs hm

/-- **C48, Twittersphere.** Indexing a readable, non-empty collection succeeds without positions; with positions (the command
line default) it succeeds exactly when nothing is missing of any collected tweet: in particular every tweet that is not a
retweet must quote one tweet and reply to another. -/
theorem twittersphere_indexes_partial (t : TW.TextOps) (tw : TW.Db) (hr : TwReadable t tw) (hne : tw.direct ≠ [])
    (cfg : IndexCfg) (s : Schedule) (hf : Fair s) (hno : ∀ i, s.fault i = none) (c : Conn DB) (db : DB) (hc : Idle c db)
    (hp : Settled db) :
    (indexCall (TW.corpus t tw) cfg s c).2 = .ok () ↔
      (cfg.positions = true → ∀ i ∈ tw.direct, ∀ x ∈ tw.tweets, x.id = i → NothingMissing tw x) := by
  obtain ⟨hs, hk⟩ := tw_serves t tw hr
  have hi := tw_indexable t tw hr cfg.positions
  rw [← hi]
  constructor
  · intro h
    exact (index_success hc (DB.Settled.toPending hp) hs hf h).1
  · intro h
    refine index_succeeds hc hp hs h hf ?_ hno
    obtain ⟨i, l, e⟩ := List.exists_cons_of_ne_nil hne
    have hi : i ∈ tw.direct := by rw [e]; simp
    obtain ⟨x, hx, rfl⟩ := hr.stored i hi
    exact List.ne_nil_of_mem ((hk _).2 ⟨x, hx, hi, rfl⟩)

/-- **C48, refutation.** With positions, one ordinary tweet (not a retweet, and not both a quote and a reply) makes indexing
the whole collection fail. -/
theorem twittersphere_ordinary_tweet_fails (t : TW.TextOps) (tw : TW.Db) (hr : TwReadable t tw) (x : TW.Tweet)
    (hx : x ∈ tw.tweets) (hd : x.id ∈ tw.direct) (h1 : x.retweeted = none) (h2 : x.quoted = none ∨ x.repliedTo = none)
    (cfg : IndexCfg) (hpos : cfg.positions = true) (s : Schedule) (hf : Fair s) (hno : ∀ i, s.fault i = none) (c : Conn DB)
    (db : DB) (hc : Idle c db) (hp : Settled db) : (indexCall (TW.corpus t tw) cfg s c).2 ≠ .ok () := by
  intro h
  have hne : tw.direct ≠ [] := List.ne_nil_of_mem hd
  have hn := (twittersphere_indexes_partial t tw hr hne cfg s hf hno c db hc hp).1 h hpos _ hd x hx rfl
  rcases hn.2 with ⟨h3, -⟩ | ⟨-, -, ⟨_, -, h4, -⟩, ⟨_, -, h5, -⟩⟩
  · exact h3 h1
  · rcases h2 with h2 | h2
    · rw [h2] at h4; cases h4
    · rw [h2] at h5; cases h5

/-! ## Examples -/

/-- Text functions for the examples: the whole text is one token, and every date is the first of January 2020. -/
def sxOps : SX.TextOps where
  tokens := fun s => [s]
  html := fun s => .ok ([], s)
  parseDate := fun _ => .ok ⟨2020, 1, 1, 10, 30, 5, 7, none⟩
  iso := fun d => toString d.year ++ "-" ++ toString d.month

/-- What the import of the sample dump stored can be indexed. -/
example : SxWellformed (SX.addSiteData (fun _ => none) sampleDump "site" (Conn.fresh sxDb)).1.committed ∧
    SxReadable sxOps (SX.addSiteData (fun _ => none) sampleDump "site" (Conn.fresh sxDb)).1.committed := by
  refine ⟨⟨by decide +kernel, by decide +kernel, by decide +kernel, by decide +kernel, by decide +kernel⟩, ⟨?_, ?_, by decide +kernel⟩⟩
  · intro p hp
    have : ∀ p ∈ (SX.addSiteData (fun _ => none) sampleDump "site" (Conn.fresh sxDb)).1.committed.posts, p.created ≠ none := by
      decide +kernel
    obtain ⟨s, hs⟩ := Option.ne_none_iff_exists'.1 (this p hp)
    exact ⟨s, _, hs, rfl, by decide⟩
  · intro p _ b _ _
    exact ⟨_, rfl⟩

/-- Without a text a comment cannot be indexed. -/
example : SxWellformed { sxDb with comments := [⟨1, some 1, some 5, none, none, none⟩] } ∧
    ¬ SxReadable sxOps { sxDb with comments := [⟨1, some 1, some 5, none, none, none⟩] } :=
  ⟨⟨by decide, by decide, by decide, by decide, by decide⟩, fun h => h.texts _ (List.mem_singleton.2 rfl) _ (List.mem_singleton.2 rfl) rfl (by decide) rfl rfl⟩

/-- Text functions for the examples. -/
def twOps : TW.TextOps where
  sqlLower := id
  lower := id
  internal := fun s => s == "https://twitter.com/x"
  hostname := fun _ => .ok none
  tokens := fun s => [s]
  unescape := id
  parseDate := fun _ => .ok ⟨2020, 1, 1, 10, 30, 5, 7, none⟩
  iso := fun d => toString d.year ++ "-" ++ toString d.month

/-- Tweet 1 is a reply to 3 quoting 2, tweet 2 a retweet of 3; 3 was not collected directly. -/
def linkedTweets : TW.Db where
  version := some 15
  tweets := [⟨1, 10, "r", "2020", "hello", some 1, none, some 2, some 3⟩, ⟨2, 11, "r", "2020", "", none, some 3, none, none⟩,
    ⟨3, 10, "r", "2020", "hi", some 1, none, none, none⟩]
  direct := [2, 1]
  urls := [⟨1, "r", none, some "http://a", some "x"⟩, ⟨1, "r", none, none, some "https://twitter.com/x"⟩]
  hashtags := [(1, some "t")]
  usersLatest := [⟨10, "r", some "ann"⟩, ⟨11, "r", some "bob"⟩]
  usersAtTime := [⟨10, "r", some "ann"⟩, ⟨11, "r", some "bob"⟩]

theorem linkedTweets_readable (d : List Nat) (hd : d.Nodup) (hs : ∀ i ∈ d, i = 1 ∨ i = 2 ∨ i = 3) :
    TwReadable twOps { linkedTweets with direct := d } where
  tweetIds := (by decide : (linkedTweets.tweets.map (·.id)).Nodup)
  profiles := (by decide : (linkedTweets.usersAtTime.map (fun u => (u.user, u.retrieved))).Nodup)
  latest := (by decide : (linkedTweets.usersLatest.map (·.user)).Nodup)
  direct := hd
  stored := by
    intro i hi
    rcases hs i hi with rfl | rfl | rfl <;> simp [linkedTweets]
  users := (by decide : ∀ tw ∈ linkedTweets.tweets, ∃ u ∈ linkedTweets.usersLatest, u.user = tw.user)
  dates := fun _ _ => ⟨_, rfl, by decide⟩
  urls := fun _ _ _ _ _ _ => ⟨_, rfl⟩
  hashtags := (by decide : ∀ r ∈ linkedTweets.hashtags, r.2 ≠ none)
  mentions := (by decide : ∀ r ∈ linkedTweets.mentions, r.2 ≠ none)

/-- Both outcomes occur: this collection can be indexed with positions; with tweet 3 collected directly it cannot. -/
example : TwReadable twOps linkedTweets ∧ (∀ i ∈ linkedTweets.direct, ∀ x ∈ linkedTweets.tweets, x.id = i → NothingMissing linkedTweets x) ∧
    TwReadable twOps { linkedTweets with direct := [1, 2, 3] } ∧
    (indexCall (TW.corpus twOps linkedTweets) demoCfg demoSchedule (Conn.fresh demoModel)).2 = .ok () ∧
    (indexCall (TW.corpus twOps { linkedTweets with direct := [1, 2, 3] }) demoCfg demoSchedule (Conn.fresh demoModel)).2 ≠ .ok () ∧
    (indexCall (TW.corpus twOps { linkedTweets with direct := [1, 2, 3] }) { demoCfg with positions := false } demoSchedule
      (Conn.fresh demoModel)).2 = .ok () := by
  have hr : TwReadable twOps linkedTweets := linkedTweets_readable [2, 1] (by decide) (by decide)
  have hr3 : TwReadable twOps { linkedTweets with direct := [1, 2, 3] } := linkedTweets_readable [1, 2, 3] (by decide) (by decide)
  have hm : ∀ i ∈ linkedTweets.direct, ∀ x ∈ linkedTweets.tweets, x.id = i → NothingMissing linkedTweets x := by
    unfold NothingMissing AuthorKnown
    decide
  have hi : Idle (Conn.fresh demoModel) demoModel := ⟨rfl, rfl, rfl, rfl, rfl, rfl⟩
  refine ⟨hr, hm, hr3, ?_, ?_, ?_⟩
  · exact (twittersphere_indexes_partial twOps linkedTweets hr (by decide) demoCfg demoSchedule demo_fair (fun _ => rfl) _ _ hi
      demoModel_settled).2 (fun _ => hm)
  · exact twittersphere_ordinary_tweet_fails twOps _ hr3 ⟨3, 10, "r", "2020", "hi", some 1, none, none, none⟩ (by decide)
      (by decide) rfl (.inl rfl) demoCfg rfl demoSchedule demo_fair (fun _ => rfl) _ _ hi demoModel_settled
  · exact (twittersphere_indexes_partial twOps _ hr3 (by decide) _ demoSchedule demo_fair (fun _ => rfl) _ _ hi
      demoModel_settled).2 (fun h => by cases h)

end Hyperreal.Props
