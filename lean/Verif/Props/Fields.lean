import Verif.Spec.Fields
import Verif.Props.Corpora

/-!
# C66: the documents of the bundled corpora are found under their own fields
-/

namespace Hyperreal.Props
open Atomic Spec

/-- After indexing: the ids of the index stand for the keys of the corpus, one each, and an id is found under a (field, value)
exactly when the mapping of its document has the value. -/
theorem index_finds {corpus : Corpus} {content : Val → Features} {cfg : IndexCfg} {s : Schedule} {c : Conn DB} {db : DB}
    (hc : Idle c db) (hp : Pending db) (hs : Serves corpus content) (hf : Fair s)
    (h : (indexCall corpus cfg s c).2 = .ok ()) :
    ∃ new, Idle (indexCall corpus cfg s c).1 new ∧ (∀ k ∈ corpus.keys, ∃ i, (i, k) ∈ new.docKeys) ∧
      (∀ i k, (i, k) ∈ new.docKeys → k ∈ corpus.keys) ∧
      (∀ i j k, (i, k) ∈ new.docKeys → (j, k) ∈ new.docKeys → i = j) ∧
      (∀ f v i, i ∈ new.docsOfKey f v → ∃ k, (i, k) ∈ new.docKeys) ∧
      ∀ i k, (i, k) ∈ new.docKeys → ∀ f v, i ∈ new.docsOfKey f v ↔ ∃ vs, (f, vs) ∈ content k ∧ some v ∈ vs.items := by
  obtain ⟨new, h1, h2, -⟩ := index_lookup hc hp hs hf h
  obtain ⟨new', h1', k1, k2, k3, -⟩ := index_keys hc hp hs hf h
  have e : new' = new := by rw [← h1.committed, ← h1'.committed]
  subst e
  refine ⟨new', h1, ?_, ?_, k3, ?_, ?_⟩
  · intro k hk
    obtain ⟨i, hi, rfl⟩ := List.mem_iff_getElem.1 hk
    exact ⟨i, (k1 _ _).2 (List.getElem?_eq_getElem hi)⟩
  · intro i k hik
    exact List.mem_of_getElem? ((k1 i k).1 hik)
  · intro f v i hi
    obtain ⟨k, vs, a, -⟩ := (h2 f v i).1 hi
    exact ⟨k, (k1 _ _).2 a⟩
  · intro i k hik f v
    rw [h2]
    constructor
    · rintro ⟨k', vs, a, b, c⟩
      rw [(k1 i k).1 hik, Option.some.injEq] at a
      subst a
      exact ⟨vs, b, c⟩
    · rintro ⟨vs, b, c⟩
      exact ⟨k, vs, (k1 i k).1 hik, b, c⟩

/-! ## Plain text -/

/-- **C66, plain text.** After indexing, a text is found under ("text", token) exactly for its tokens, and under nothing
else. -/
theorem plain_text_finds (tokens : String → List String) (rows : List (Nat × String)) (hn : (rows.map (·.1)).Nodup)
    (cfg : IndexCfg) (s : Schedule) (hf : Fair s) (c : Conn DB) (db : DB) (hc : Idle c db) (hp : Pending db)
    (h : (indexCall (PlainText.corpus tokens rows) cfg s c).2 = .ok ()) :
    ∃ new, Idle (indexCall (PlainText.corpus tokens rows) cfg s c).1 new ∧
      (∀ r ∈ rows, ∃ i, (i, .int r.1) ∈ new.docKeys) ∧
      (∀ f v i, i ∈ new.docsOfKey f v → ∃ r ∈ rows, (i, .int r.1) ∈ new.docKeys) ∧
      ∀ r ∈ rows, ∀ i, (i, .int r.1) ∈ new.docKeys → ∀ f v,
        i ∈ new.docsOfKey f v ↔ f = "text" ∧ ∃ w ∈ tokens r.2, v = .text w := by
  obtain ⟨hs, -⟩ := plain_text_serves tokens rows hn
  obtain ⟨new, h1, h2, h3, -, h4, h5⟩ := index_finds hc hp hs hf h
  refine ⟨new, h1, ?_, ?_, ?_⟩
  · intro r hr
    exact h2 _ (List.mem_map.2 ⟨r, hr, rfl⟩)
  · intro f v i hi
    obtain ⟨k, hk⟩ := h4 f v i hi
    obtain ⟨r, hr, rfl⟩ := List.mem_map.1 (h3 i k hk)
    exact ⟨r, hr, hk⟩
  · intro r hr i hi f v
    rw [h5 i _ hi]
    have e : plainContent tokens rows (.int r.1) = PlainText.features tokens r.2 := by
      have := PlainText.docOf_unique rows hn r hr
      simp [plainContent, PlainText.indexed, PlainText.asKey, this]
    rw [e]
    simp only [PlainText.features, List.mem_singleton, Prod.mk.injEq]
    constructor
    · rintro ⟨vs, ⟨rfl, rfl⟩, hv⟩
      simp only [Values.items, List.mem_map, Option.some.injEq] at hv
      obtain ⟨w, hw, rfl⟩ := hv
      exact ⟨rfl, w, hw, rfl⟩
    · rintro ⟨rfl, w, hw, rfl⟩
      exact ⟨_, ⟨rfl, rfl⟩, by simpa [Values.items] using hw⟩

/-! ## StackExchange -/

theorem sx_named (db : SX.Db) (hu : ∀ u ∈ db.users, ∀ v ∈ db.users, u.key ≠ none → u.key = v.key → u = v) (site : Nat)
    (user : Option Int) (n : String) : SX.displayName db site user = n ↔ SxNamed db site user n := by
  unfold SX.displayName SxNamed
  cases user with
  | none =>
    dsimp only
    constructor
    · rintro rfl
      exact .inr ⟨rfl, fun ⟨u, _, _, h1, h2, _⟩ => h1 h2⟩
    · rintro (⟨u, _, _, h1, h2, _⟩ | ⟨rfl, -⟩)
      · exact absurd h2 h1
      · rfl
  | some i =>
    dsimp only
    have hkey : ∀ u : SX.User, u.key = some (site, i) ↔ u.site = site ∧ u.id = some i := by
      intro u
      cases h : u.id <;> simp [SX.User.key, h]
    cases h : (db.users.filter (fun x => x.key = some (site, i))).head? with
    | none =>
      have hno : ∀ u ∈ db.users, ¬ (u.site = site ∧ u.id = some i) := by
        intro u hu' hk
        rw [List.head?_eq_none_iff, List.filter_eq_nil_iff] at h
        exact h u hu' (by simpa using (hkey u).2 hk)
      dsimp only
      constructor
      · rintro rfl
        exact .inr ⟨rfl, fun ⟨u, a, b, _, d, _⟩ => hno u a ⟨b, d⟩⟩
      · rintro (⟨u, a, b, _, d, _⟩ | ⟨rfl, -⟩)
        · exact absurd ⟨b, d⟩ (hno u a)
        · rfl
    | some x =>
      obtain ⟨hx, hk⟩ := head?_filter_mem h
      simp only [decide_eq_true_eq] at hk
      obtain ⟨k1, k2⟩ := (hkey x).1 hk
      have huniq : ∀ u ∈ db.users, u.site = site → u.id = some i → u = x := by
        intro u a b d
        have hk' := (hkey u).2 ⟨b, d⟩
        exact hu u a x hx (by rw [hk']; simp) (by rw [hk', hk])
      dsimp only
      cases hn : x.name with
      | none =>
        constructor
        · rintro rfl
          exact .inr ⟨rfl, fun ⟨u, a, b, _, d, e⟩ => e (by rw [huniq u a b d]; exact hn)⟩
        · rintro (⟨u, a, b, _, d, e⟩ | ⟨rfl, -⟩)
          · rw [huniq u a b d, hn] at e; cases e
          · rfl
      | some m =>
        constructor
        · rintro rfl
          exact .inl ⟨x, hx, k1, by rw [k2]; simp, k2, hn⟩
        · rintro (⟨u, a, b, _, d, e⟩ | ⟨rfl, hno⟩)
          · rw [huniq u a b d, hn] at e
            exact Option.some.inj e
          · exact absurd ⟨x, hx, k1, by rw [k2]; simp, k2, by rw [hn]; simp⟩ hno

theorem sx_docOf (db : SX.Db) (hw : SxWellformed db)
    (hu : ∀ u ∈ db.users, ∀ v ∈ db.users, u.key ≠ none → u.key = v.key → u = v) (p : SX.Post) (hp : p ∈ db.posts) :
    ∃ doc, SX.docOf db p.docId = .ok doc ∧ SxDocOf db p doc := by
  obtain ⟨s0, hs0, hs0'⟩ := hw.known p hp
  obtain ⟨s, hs, hs1, hs2⟩ := head?_filter_some (p := fun s : SX.Site => decide (s.id = p.site)) hs0 (by simpa using hs0')
  simp only [decide_eq_true_eq] at hs2
  unfold SX.docOf
  rw [docId_filter (postsOk hw) hp rfl]
  dsimp only
  rw [hs]
  refine ⟨_, rfl, ⟨⟨s, hs1, hs2, rfl⟩, ⟨rfl, rfl, rfl, rfl⟩, (sx_named db hu _ _ _).1 rfl, ?_, ?_⟩⟩
  · intro w
    simp only [List.mem_map, List.mem_filter, decide_eq_true_iff]
    unfold SX.Post.tagPost
    constructor
    · rintro ⟨g, ⟨a, b, d⟩, rfl⟩
      refine ⟨g, a, b, rfl, ?_⟩
      cases hpar : p.parent with
      | none => rw [hpar] at d; exact .inr ⟨rfl, by simpa using d.symm⟩
      | some q => rw [hpar] at d; exact .inl (by simpa using d.symm)
    · rintro ⟨g, a, b, rfl, d | ⟨d, e⟩⟩
      · exact ⟨g, ⟨a, b, by simp [d]⟩, rfl⟩
      · exact ⟨g, ⟨a, b, by simp [d, e]⟩, rfl⟩
  · intro n x
    simp only [List.mem_map, List.mem_filter, decide_eq_true_eq, Prod.mk.injEq]
    constructor
    · rintro ⟨c, ⟨a, b, d, e⟩, f, g⟩
      exact ⟨c, a, b, d, e, g, b ▸ (sx_named db hu _ _ _).1 f⟩
    · rintro ⟨c, a, b, d, e, g, f⟩
      exact ⟨c, ⟨a, b, d, e⟩, by rw [b]; exact (sx_named db hu _ _ _).2 f, g⟩

theorem mem_toks {l : List String} {v : Val} : some v ∈ SX.toks l ↔ ∃ s ∈ l, v = .text s := by
  simp only [SX.toks, List.mem_map, Option.some.injEq]
  exact ⟨fun ⟨a, b, c⟩ => ⟨a, b, c.symm⟩, fun ⟨a, b, c⟩ => ⟨a, b, c.symm⟩⟩

theorem truncates_unique {n : Nat} {d r r' : Datetime} (h : Truncates n d r) (h' : Truncates n d r') : r = r' :=
  parts_ext (h.1.trans h'.1.symm) (h.2.trans h'.2.symm)

theorem sx_features (t : SX.TextOps) (h0 : t.tokens "" = []) (doc : SX.Doc) (s : String) (dt : Datetime)
    (hs : doc.created = some s) (hdt : t.parseDate s = .ok dt) (hv : dt.valid = true)
    (hb : ∀ b, doc.body = some b → b ≠ "" → ∃ r, t.html b = .ok r) (hc : ∀ c ∈ doc.comments, c.2 ≠ none) :
    ∃ f, SX.features t doc = .ok f ∧ ∀ fld v, (∃ vs, (fld, vs) ∈ f ∧ some v ∈ vs.items) ↔
      ∃ w, v = .text w ∧ SxShows t doc fld w := by
  have hround := round_ok dt hv
  have hcr : SX.createdFields t (some s) = .ok [
      ("created_day", .bag [some (.text (t.iso { dt with hour := 0, minute := 0, second := 0, micro := 0 }))]),
      ("created_month", .bag [some (.text (t.iso { dt with day := 1, hour := 0, minute := 0, second := 0, micro := 0 }))]),
      ("created_year", .bag [some (.text (t.iso { dt with month := 1, day := 1, hour := 0, minute := 0, second := 0, micro := 0 }))])] := by
    simp only [SX.createdFields, hdt, hround]
    rfl
  have hparts : ∃ codes text, SX.bodyParts t doc.body = .ok (codes, text) ∧
      (∀ w, w ∈ t.tokens text ↔ ∃ b codes' text', doc.body = some b ∧ b ≠ "" ∧ t.html b = .ok (codes', text') ∧ w ∈ t.tokens text') ∧
      (∀ x, x ∈ codes ↔ ∃ b codes' text', doc.body = some b ∧ b ≠ "" ∧ t.html b = .ok (codes', text') ∧ x ∈ codes') := by
    unfold SX.bodyParts
    cases hbd : doc.body with
    | none => exact ⟨[], "", rfl, by simp [h0], by simp⟩
    | some b =>
      by_cases hbe : b = ""
      · exact ⟨[], "", by simp [hbe], by simp [h0, hbe], by simp [hbe]⟩
      · obtain ⟨⟨codes, text⟩, hr⟩ := hb b hbd hbe
        refine ⟨codes, text, by simp [hbe, hr], ?_, ?_⟩
        · intro w
          constructor
          · intro h; exact ⟨b, codes, text, rfl, hbe, hr, h⟩
          · rintro ⟨b', c', t', e1, -, e2, e3⟩
            cases e1
            rw [hr] at e2
            cases e2
            exact e3
        · intro x
          constructor
          · intro h; exact ⟨b, codes, text, rfl, hbe, hr, h⟩
          · rintro ⟨b', c', t', e1, -, e2, e3⟩
            cases e1
            rw [hr] at e2
            cases e2
            exact e3
  obtain ⟨codes, text, hp1, hp2, hp3⟩ := hparts
  have hcs : doc.comments.mapM (SX.commentTokens t) = .ok (doc.comments.map (fun c => t.tokens (c.2.getD ""))) := by
    refine mapM_eq_map _ _ _ ?_
    intro c hc'
    unfold SX.commentTokens
    cases h : c.2 with
    | none => exact absurd h (hc c hc')
    | some x => rfl
  refine ⟨_, by unfold SX.features; rw [hp1, hcs, hs, hcr]; rfl, ?_⟩
  have htr : ∀ (g : String) (n : Nat) (r : Datetime), Truncates n dt r → (g, n) ∈ [("year", 1), ("month", 2), ("day", 3)] →
      SxShows t doc ("created_" ++ g) (t.iso r) := fun g n r h hg => .created s g n dt r hs hdt hg h
  intro fld v
  constructor
  · rintro ⟨vs, hm, hv'⟩
    simp only [List.mem_append, List.mem_cons, List.not_mem_nil, or_false, Prod.mk.injEq] at hm
    rcases hm with (⟨rfl, rfl⟩ | ⟨rfl, rfl⟩ | ⟨rfl, rfl⟩ | ⟨rfl, rfl⟩ | ⟨rfl, rfl⟩ | ⟨rfl, rfl⟩ | ⟨rfl, rfl⟩ | ⟨rfl, rfl⟩) |
      ⟨rfl, rfl⟩ | ⟨rfl, rfl⟩ | ⟨rfl, rfl⟩ <;> simp only [Values.items] at hv'
    · simp only [List.mem_singleton, Option.some.injEq] at hv'
      exact ⟨_, hv', .poster⟩
    · obtain ⟨w, hw, rfl⟩ := mem_toks.1 hv'
      refine ⟨w, rfl, ?_⟩
      rcases List.mem_append.1 hw with hw | hw
      · cases ht : doc.title with
        | none => rw [ht] at hw; simp [h0] at hw
        | some x => rw [ht] at hw; exact .title x w ht hw
      · obtain ⟨b, c', t', e1, e2, e3, e4⟩ := (hp2 w).1 hw
        exact .body b c' t' w e1 e2 e3 e4
    · obtain ⟨w, hw, rfl⟩ := mem_toks.1 hv'
      refine ⟨w, rfl, ?_⟩
      obtain ⟨x, hx, hw⟩ := List.mem_flatMap.1 hw
      obtain ⟨b, c', t', e1, e2, e3, e4⟩ := (hp3 x).1 (List.mem_filter.1 hx).1
      exact .code b c' t' x w e1 e2 e3 e4 hw
    · obtain ⟨w, hw, rfl⟩ := mem_toks.1 hv'
      exact ⟨w, rfl, .tag w hw⟩
    · obtain ⟨w, hw, rfl⟩ := mem_toks.1 hv'
      obtain ⟨⟨n, x⟩, hx, rfl⟩ := List.mem_map.1 hw
      exact ⟨_, rfl, .commenter n x hx⟩
    · obtain ⟨w, hw, rfl⟩ := mem_toks.1 hv'
      obtain ⟨l, hl, hw⟩ := List.mem_flatten.1 hw
      obtain ⟨⟨n, x⟩, hx, rfl⟩ := List.mem_map.1 hl
      cases x with
      | none => exact absurd rfl (hc _ hx)
      | some x => exact ⟨w, rfl, .comment n x w hx hw⟩
    · simp only [List.mem_singleton, Option.some.injEq] at hv'
      exact ⟨_, hv', .site⟩
    · simp only [List.mem_singleton, Option.some.injEq] at hv'
      exact ⟨_, hv', .kind⟩
    · simp only [List.mem_singleton, Option.some.injEq] at hv'
      exact ⟨_, hv', htr "day" 3 _ ⟨rfl, rfl⟩ (by simp)⟩
    · simp only [List.mem_singleton, Option.some.injEq] at hv'
      exact ⟨_, hv', htr "month" 2 _ ⟨rfl, rfl⟩ (by simp)⟩
    · simp only [List.mem_singleton, Option.some.injEq] at hv'
      exact ⟨_, hv', htr "year" 1 _ ⟨rfl, rfl⟩ (by simp)⟩
  · rintro ⟨w, rfl, hw⟩
    cases hw with
    | poster => exact ⟨_, by simp only [List.mem_append, List.mem_cons, true_or]; exact .inl (.inl rfl), by simp [Values.items]⟩
    | title x _ h1 h2 =>
      exact ⟨_, List.mem_append_left _ (.tail _ (.head _)), mem_toks.2 ⟨w, List.mem_append_left _ (by rw [h1]; exact h2), rfl⟩⟩
    | body b c' t' _ h1 h2 h3 h4 =>
      exact ⟨_, List.mem_append_left _ (.tail _ (.head _)),
        mem_toks.2 ⟨w, List.mem_append_right _ ((hp2 w).2 ⟨b, c', t', h1, h2, h3, h4⟩), rfl⟩⟩
    | code b c' t' x _ h1 h2 h3 h4 h5 =>
      refine ⟨_, List.mem_append_left _ (.tail _ (.tail _ (.head _))), mem_toks.2 ⟨w, List.mem_flatMap.2 ⟨x, ?_, h5⟩, rfl⟩⟩
      refine List.mem_filter.2 ⟨(hp3 x).2 ⟨b, c', t', h1, h2, h3, h4⟩, ?_⟩
      have : x ≠ "" := by rintro rfl; simp [h0] at h5
      simpa using this
    | tag _ h1 => exact ⟨_, List.mem_append_left _ (.tail _ (.tail _ (.tail _ (.head _)))), mem_toks.2 ⟨w, h1, rfl⟩⟩
    | commenter _ x h1 =>
      exact ⟨_, List.mem_append_left _ (.tail _ (.tail _ (.tail _ (.tail _ (.head _))))),
        mem_toks.2 ⟨w, List.mem_map.2 ⟨_, h1, rfl⟩, rfl⟩⟩
    | comment n x _ h1 h2 =>
      exact ⟨_, List.mem_append_left _ (.tail _ (.tail _ (.tail _ (.tail _ (.tail _ (.head _)))))),
        mem_toks.2 ⟨w, List.mem_flatten.2 ⟨_, List.mem_map.2 ⟨_, h1, rfl⟩, h2⟩, rfl⟩⟩
    | site => exact ⟨_, List.mem_append_left _ (.tail _ (.tail _ (.tail _ (.tail _ (.tail _ (.tail _ (.head _))))))),
        by simp [Values.items]⟩
    | kind => exact ⟨_, List.mem_append_left _ (.tail _ (.tail _ (.tail _ (.tail _ (.tail _ (.tail _ (.tail _ (.head _)))))))),
        by simp [Values.items]⟩
    | created s' g n d r h1 h2 h3 h4 =>
      rw [hs, Option.some.injEq] at h1
      subst h1
      rw [hdt, Except.ok.injEq] at h2
      subst h2
      simp only [List.mem_cons, List.not_mem_nil, or_false, Prod.mk.injEq] at h3
      rcases h3 with ⟨rfl, rfl⟩ | ⟨rfl, rfl⟩ | ⟨rfl, rfl⟩
      · have := truncates_unique h4 (show Truncates 1 dt { dt with month := 1, day := 1, hour := 0, minute := 0, second := 0, micro := 0 } from ⟨rfl, rfl⟩)
        subst this
        exact ⟨_, List.mem_append_right _ (.tail _ (.tail _ (.head _))), by simp [Values.items]⟩
      · have := truncates_unique h4 (show Truncates 2 dt { dt with day := 1, hour := 0, minute := 0, second := 0, micro := 0 } from ⟨rfl, rfl⟩)
        subst this
        exact ⟨_, List.mem_append_right _ (.tail _ (.head _)), by simp [Values.items]⟩
      · have := truncates_unique h4 (show Truncates 3 dt { dt with hour := 0, minute := 0, second := 0, micro := 0 } from ⟨rfl, rfl⟩)
        subst this
        exact ⟨_, List.mem_append_right _ (.head _), by simp [Values.items]⟩

/-- What is indexed for a post: what its document shows. -/
theorem sx_content (t : SX.TextOps) (h0 : t.tokens "" = []) (sx : SX.Db) (hw : SxWellformed sx)
    (hu : ∀ u ∈ sx.users, ∀ v ∈ sx.users, u.key ≠ none → u.key = v.key → u = v) (hr : SxReadable t sx) (p : SX.Post)
    (hp' : p ∈ sx.posts) :
    ∃ doc, SX.docOf sx p.docId = .ok doc ∧ SxDocOf sx p doc ∧ ∀ f v,
      (∃ vs, (f, vs) ∈ okOr (SX.indexed t sx (.int p.docId)) ∧ some v ∈ vs.items) ↔ ∃ w, v = .text w ∧ SxShows t doc f w := by
  obtain ⟨doc, hd, hdoc⟩ := sx_docOf sx hw hu p hp'
  refine ⟨doc, hd, hdoc, ?_⟩
  intro f v
  obtain ⟨str, dt, e1, e2, e3⟩ := hr.dates p hp'
  obtain ⟨g, hg, hg'⟩ := sx_features t h0 doc str dt (by rw [hdoc.columns.2.2.1]; exact e1) e2 e3
    (fun b hb hne => hr.bodies p hp' b (by rw [← hdoc.columns.2.1]; exact hb) hne) (by
      rintro ⟨n, x⟩ hx
      obtain ⟨c, a1, a2, a3, a4, a5, -⟩ := (hdoc.comments n x).1 hx
      exact a5 ▸ hr.texts p hp' c a1 a2 a3 a4)
  have : okOr (SX.indexed t sx (.int p.docId)) = g := by
    refine okOr_eq ?_
    have e : SX.indexed t sx (.int p.docId) =
      (match SX.docOf sx p.docId with | .error e => .error e | .ok d => SX.features t d) := rfl
    rw [e, hd]
    exact hg
  rw [this]
  exact hg' f v

/-- **C66, StackExchange.** After indexing, every post has an id in the index, every id found stands for a post, and the post
is found under a (field, value) exactly when its document shows it: the words of the title and the text, the code blocks,
the question's tags, the names of author and commenters, the comments, site, kind and creation date. -/
theorem stack_exchange_finds (t : SX.TextOps) (h0 : t.tokens "" = []) (scan : List SX.Post → List SX.Post)
    (hscan : ∀ l, (scan l).Perm l) (sx : SX.Db) (hw : SxWellformed sx)
    (hu : ∀ u ∈ sx.users, ∀ v ∈ sx.users, u.key ≠ none → u.key = v.key → u = v) (hr : SxReadable t sx) (cfg : IndexCfg)
    (s : Schedule) (hf : Fair s) (c : Conn DB) (db : DB) (hc : Idle c db) (hp : Pending db)
    (h : (indexCall (SX.corpus t scan sx) cfg s c).2 = .ok ()) :
    ∃ new, Idle (indexCall (SX.corpus t scan sx) cfg s c).1 new ∧
      (∀ p ∈ sx.posts, ∃ i, (i, .int p.docId) ∈ new.docKeys) ∧
      (∀ f v i, i ∈ new.docsOfKey f v → ∃ p ∈ sx.posts, (i, .int p.docId) ∈ new.docKeys) ∧
      ∀ p ∈ sx.posts, ∃ doc, SX.docOf sx p.docId = .ok doc ∧ SxDocOf sx p doc ∧ ∀ i, (i, .int p.docId) ∈ new.docKeys →
        ∀ f v, i ∈ new.docsOfKey f v ↔ ∃ w, v = .text w ∧ SxShows t doc f w := by
  obtain ⟨hs, -, hk⟩ := sx_serves t scan hscan sx hw hr
  obtain ⟨new, h1, h2, h3, -, h4, h5⟩ := index_finds hc hp hs hf h
  refine ⟨new, h1, ?_, ?_, ?_⟩
  · intro p hp'
    exact h2 _ ((hk _).2 ⟨p, hp', rfl⟩)
  · intro f v i hi
    obtain ⟨k, hk'⟩ := h4 f v i hi
    obtain ⟨p, hp', rfl⟩ := (hk k).1 (h3 i k hk')
    exact ⟨p, hp', hk'⟩
  · intro p hp'
    obtain ⟨doc, hd, hdoc, hg⟩ := sx_content t h0 sx hw hu hr p hp'
    refine ⟨doc, hd, hdoc, ?_⟩
    intro i hi f v
    rw [h5 i _ hi]
    exact hg f v

theorem sx_yields (db : SX.Db) : ∀ (ks : List Nat) (l : List (Nat × SX.Doc)), SX.yields db ks = (l, none) →
    ∀ k doc, (k, doc) ∈ l → SX.docOf db k = .ok doc
  | [], l, h, k, doc, hm => by
    simp only [SX.yields, Prod.mk.injEq, and_true] at h
    subst h
    cases hm
  | k' :: ks, l, h, k, doc, hm => by
    rw [SX.yields] at h
    cases hd : SX.docOf db k' with
    | error e => rw [hd] at h; simp at h
    | ok d =>
      rw [hd] at h
      simp only [Prod.mk.injEq] at h
      obtain ⟨rfl, h2⟩ := h
      rcases List.mem_cons.1 hm with hm | hm
      · cases hm; exact hd
      · exact sx_yields db ks _ (Prod.ext rfl h2) k doc hm

/-- The corpus that a tidy dump makes. -/
theorem imported_corpus (t : SX.TextOps) (d : SX.Dump) (url : String) (hd : Tidy d) (hr : DumpReadable t d) (hne : considered d ≠ []) :
    ∃ sx, Idle (SX.addSiteData (fun _ => none) d url (Conn.fresh {})).1 sx ∧
      (SX.addSiteData (fun _ => none) d url (Conn.fresh {})).2 = .ok () ∧
      sx = SX.imported 1 d { sites := [⟨1, url⟩] } ∧ SxWellformed sx ∧
      (∀ u ∈ sx.users, ∀ v ∈ sx.users, u.key ≠ none → u.key = v.key → u = v) ∧ SxReadable t sx ∧ sx.posts ≠ [] ∧
      (∀ p ∈ sx.posts, ∃ (n : Nat) (r : SX.PostRow), (considered d)[n]? = some r ∧ p.docId = n + 1) ∧
      ∀ (n : Nat) r, (considered d)[n]? = some r → (∃ p ∈ sx.posts, p.docId = n + 1) ∧
        SX.docOf sx (n + 1) = .ok (docFrom d url 1 r) := by
  have hi : Idle (Conn.fresh ({} : SX.Db)) {} := ⟨rfl, rfl, rfl, rfl, rfl, rfl⟩
  have hok := import_succeeds d url (Conn.fresh {}) {} hi hd.toComplete
  obtain ⟨sx, k1, k2, k3⟩ := import_fresh (fun _ => none) d url (Conn.fresh {}) hi hd hok
  have hsx : sx = SX.imported 1 d { sites := [⟨1, url⟩] } := by
    have hend := SX.addSiteData_end (fun _ => none) d url (Conn.fresh {}) {} hi
    generalize SX.addSiteData (fun _ => none) d url (Conn.fresh {}) = res at hok hend k1
    cases hend with
    | failed c' e log h1 h2 h3 h4 h5 => cases hok
    | done c' log h1 h2 h3 h4 =>
      have hput : SX.putSite url {} = { sites := [⟨1, url⟩] } := rfl
      have hsite : SX.siteOf url {} = 1 := by simp [SX.siteOf, hput, SX.siteId]
      rw [hput, hsite] at h1
      rw [← k1.committed, ← h1.committed]
  obtain ⟨hposts, hcom, husers, htags⟩ := fresh_tables d url hd
  rw [← hsx] at hposts hcom husers htags
  have hw : SxWellformed sx := by
    have := import_wellformed d url {} ⟨by simp, by simp, List.Pairwise.nil, by simp, by simp⟩
    have hput : SX.putSite url {} = { sites := [⟨1, url⟩] } := rfl
    have hsite : SX.siteOf url {} = 1 := by simp [SX.siteOf, hput, SX.siteId]
    rw [hput, hsite] at this
    rw [hsx]; exact this
  have hu : ∀ u ∈ sx.users, ∀ v ∈ sx.users, u.key ≠ none → u.key = v.key → u = v := by
    rw [husers]
    have hkn : (SX.userRow 1 {}).key = none := rfl
    intro u hu v hv hk he
    rcases List.mem_append.1 hu with hu | hu
    · obtain ⟨a, ha, rfl⟩ := List.mem_map.1 hu
      rcases List.mem_append.1 hv with hv | hv
      · obtain ⟨b, hb, rfl⟩ := List.mem_map.1 hv
        have : a.id = b.id := by
          cases h1 : a.id <;> cases h2 : b.id <;> simp_all [SX.User.key, SX.userRow]
        rw [List.inj_on_of_nodup_map hd.usersDistinct ha hb this]
      · rw [List.mem_singleton] at hv
        rw [hv, hkn] at he
        exact absurd he hk
    · rw [List.mem_singleton] at hu
      rw [hu, hkn] at hk
      exact absurd rfl hk
  have hpost : ∀ p ∈ sx.posts, ∃ (n : Nat) (r : SX.PostRow), (considered d)[n]? = some r ∧ p.docId = n + 1 ∧ p.created = r.created ∧
      p.body = r.body := by
    rw [hposts]
    intro p hp'
    obtain ⟨⟨r, n⟩, hx, rfl⟩ := List.mem_map.1 hp'
    exact ⟨n, r, List.mk_mem_zipIdx_iff_getElem?.1 hx, rfl, rfl, rfl⟩
  have hread : SxReadable t sx := by
    refine ⟨?_, ?_, ?_⟩
    · intro p hp'
      obtain ⟨n, r, e1, -, e2, -⟩ := hpost p hp'
      rw [e2]
      exact hr.dates r (List.mem_of_getElem? e1)
    · intro p hp' b hb
      obtain ⟨n, r, e1, -, -, e2⟩ := hpost p hp'
      exact hr.bodies r (List.mem_of_getElem? e1) b (e2 ▸ hb)
    · intro p _ x hx _ hpx _
      rw [hcom] at hx
      rcases List.mem_append.1 hx with hx | hx
      · obtain ⟨a, ha, rfl⟩ := List.mem_map.1 hx
        exact hr.texts a ha
      · rw [List.mem_singleton] at hx
        rw [hx] at hpx
        exact absurd rfl hpx
  have hin : ∀ (n : Nat) r, (considered d)[n]? = some r → ∃ p ∈ sx.posts, p.docId = n + 1 := by
    intro n r hn
    rw [hposts]
    exact ⟨_, List.mem_map.2 ⟨(r, n), List.mk_mem_zipIdx_iff_getElem?.2 hn, rfl⟩, rfl⟩
  have hpne : sx.posts ≠ [] := by
    obtain ⟨r, l, hl⟩ := List.exists_cons_of_ne_nil hne
    obtain ⟨p, hp', -⟩ := hin 0 r (by rw [hl]; rfl)
    exact List.ne_nil_of_mem hp'
  refine ⟨sx, k1, hok, hsx, hw, hu, hread, hpne, fun p hp' => ?_, fun n r hn => ⟨hin n r hn, ?_⟩⟩
  · obtain ⟨n, r, e1, e2, -⟩ := hpost p hp'
    exact ⟨n, r, e1, e2⟩
  · exact sx_yields sx _ _ k3 _ _ (List.mem_map.2 ⟨(r, n), List.mk_mem_zipIdx_iff_getElem?.2 hn, rfl⟩)

/-- **C66, from a dump to the index.** After a tidy dump is imported into a new corpus and the corpus indexed, the questions and
answers of the dump, and nothing else, are found, each under what the dump says about it (`docFrom`). -/
theorem dump_to_index (t : SX.TextOps) (h0 : t.tokens "" = []) (scan : List SX.Post → List SX.Post)
    (hscan : ∀ l, (scan l).Perm l) (d : SX.Dump) (url : String) (hd : Tidy d) (hr : DumpReadable t d) (hne : considered d ≠ [])
    (cfg : IndexCfg) (s : Schedule) (hf : Fair s) (hno : ∀ i, s.fault i = none) (c : Conn DB) (db : DB) (hc : Idle c db)
    (hp : Settled db) :
    ∃ sx, Idle (SX.addSiteData (fun _ => none) d url (Conn.fresh {})).1 sx ∧
      (SX.addSiteData (fun _ => none) d url (Conn.fresh {})).2 = .ok () ∧
      (indexCall (SX.corpus t scan sx) cfg s c).2 = .ok () ∧
      ∃ new, Idle (indexCall (SX.corpus t scan sx) cfg s c).1 new ∧
        (∀ f v i, i ∈ new.docsOfKey f v → ∃ n < (considered d).length, (i, .int (n + 1 : Nat)) ∈ new.docKeys) ∧
        ∀ (n : Nat) r, (considered d)[n]? = some r → ∃ i, (i, .int (n + 1 : Nat)) ∈ new.docKeys ∧
          ∀ f v, i ∈ new.docsOfKey f v ↔ ∃ w, v = .text w ∧ SxShows t (docFrom d url 1 r) f w := by
  obtain ⟨sx, k1, hok, -, hw, hu, hread, hpne, hpost, hin⟩ := imported_corpus t d url hd hr hne
  have hidx := stack_exchange_indexes t scan hscan sx hw hread hpne cfg s hf hno c db hc hp
  refine ⟨sx, k1, hok, hidx, ?_⟩
  obtain ⟨new, h1, h2, h3, h4⟩ := stack_exchange_finds t h0 scan hscan sx hw hu hread cfg s hf c db hc
    (DB.Settled.toPending hp) hidx
  refine ⟨new, h1, ?_, ?_⟩
  · intro f v i hi'
    obtain ⟨p, hp', hk⟩ := h3 f v i hi'
    obtain ⟨n, r, e1, e2⟩ := hpost p hp'
    rw [e2] at hk
    exact ⟨n, (List.getElem?_eq_some_iff.1 e1).1, hk⟩
  · intro n r hn
    obtain ⟨⟨p, hp', e⟩, hfrom⟩ := hin n r hn
    obtain ⟨i, hi'⟩ := h2 p hp'
    obtain ⟨doc, hdoc, -, hfind⟩ := h4 p hp'
    rw [e, hfrom, Except.ok.injEq] at hdoc
    subst hdoc
    rw [e] at hi'
    exact ⟨i, hi', fun f v => hfind i (by rw [e]; exact hi') f v⟩

/-! ## Twittersphere -/

theorem mem_mapM_ok {α β : Type} (f : α → Except Err β) : ∀ (l : List α) (r : List β), l.mapM f = .ok r →
    ∀ b, b ∈ r ↔ ∃ a ∈ l, f a = .ok b
  | [], r, h, b => by
    simp only [List.mapM_nil, pure, Except.pure, Except.ok.injEq] at h
    subst h
    simp
  | a :: l, r, h, b => by
    rw [List.mapM_cons] at h
    cases ha : f a with
    | error e => rw [ha] at h; cases h
    | ok x =>
      cases hl : l.mapM f with
      | error e => rw [ha, hl] at h; cases h
      | ok y =>
        rw [ha, hl] at h
        have : r = x :: y := by cases h; rfl
        subst this
        have ih := mem_mapM_ok f l y hl b
        simp only [List.mem_cons, ih]
        constructor
        · rintro (rfl | ⟨a', h1, h2⟩)
          · exact ⟨a, .inl rfl, ha⟩
          · exact ⟨a', .inr h1, h2⟩
        · rintro ⟨a', rfl | h1, h2⟩
          · rw [ha, Except.ok.injEq] at h2; exact .inl h2.symm
          · exact .inr ⟨a', h1, h2⟩

theorem tw_author (t : TW.TextOps) (db : TW.Db) (hr : TwReadable t db) (i : Option Int) (n : String) :
    (TW.relatedUser db i).getD none = some n ↔ TwAuthor db i n := by
  unfold TW.relatedUser TwAuthor
  cases i with
  | none => simp
  | some i =>
    dsimp only
    constructor
    · intro h
      cases h1 : (db.tweets.filter (fun t => (t.id : Int) = i)).head? with
      | none => simp [h1] at h
      | some tw =>
        rw [h1] at h
        dsimp only at h
        obtain ⟨a1, a2⟩ := head?_filter_mem h1
        simp only [decide_eq_true_eq] at a2
        cases h2 : (db.usersAtTime.filter (fun u => u.user = tw.user ∧ u.retrieved = tw.retrieved)).head? with
        | none => rw [h2] at h; simp at h
        | some u =>
          obtain ⟨b1, b2⟩ := head?_filter_mem h2
          simp only [decide_eq_true_eq] at b2
          refine ⟨tw, a1, by rw [a2], u, b1, b2.1, b2.2, ?_⟩
          rw [h2] at h
          simpa using h
    · rintro ⟨tw, h1, h2, u, h3, h4, h5, h6⟩
      simp only [Option.some.injEq] at h2
      obtain ⟨tw', e1, e2, e3⟩ := head?_filter_some (p := fun t : TW.Tweet => decide ((t.id : Int) = i)) h1 (by simp [h2])
      simp only [decide_eq_true_eq] at e3
      have : tw' = tw := List.inj_on_of_nodup_map hr.tweetIds e2 h1 (by omega)
      subst this
      rw [e1]
      dsimp only
      obtain ⟨u', f1, f2, f3⟩ := head?_filter_some
        (p := fun u : TW.UserRow => decide (u.user = tw'.user ∧ u.retrieved = tw'.retrieved)) h3 (by simp [h4, h5])
      simp only [decide_eq_true_eq] at f3
      have : u' = u := List.inj_on_of_nodup_map hr.profiles f2 h3 (by rw [f3.1, f3.2, h4, h5])
      subst this
      rw [f1]
      simpa using h6

theorem tw_link (t : TW.TextOps) (db : TW.Db) (x : TW.Tweet) (s : String) :
    s ∈ TW.externalUrls t db x ↔ TwLink t db x s := by
  unfold TW.externalUrls TwLink
  simp only [List.mem_filterMap, List.mem_filter, decide_eq_true_eq]
  constructor
  · rintro ⟨u, ⟨h1, h2, h3⟩, h4⟩
    refine ⟨u, h1, h2, h3, ?_⟩
    cases hu : u.unwound with
    | some a =>
      rw [hu] at h4
      simp only [Option.some_or] at h4
      split at h4
      · cases h4
      · rename_i hi
        cases h4
        exact ⟨by simpa using hi, .inl rfl⟩
    | none =>
      cases he : u.expanded with
      | some a =>
        rw [hu, he] at h4
        simp only [Option.none_or, Option.some_or] at h4
        split at h4
        · cases h4
        · rename_i hi
          cases h4
          exact ⟨by simpa using hi, .inr (.inl ⟨rfl, rfl⟩)⟩
      | none =>
        cases hl : u.url with
        | none => rw [hu, he, hl] at h4; cases h4
        | some a =>
          rw [hu, he, hl] at h4
          simp only [Option.none_or] at h4
          split at h4
          · cases h4
          · rename_i hi
            cases h4
            exact ⟨by simpa using hi, .inr (.inr ⟨rfl, rfl, rfl⟩)⟩
  · rintro ⟨u, h1, h2, h3, h4, h5⟩
    refine ⟨u, ⟨h1, h2, h3⟩, ?_⟩
    have : u.unwound.or (u.expanded.or u.url) = some s := by
      rcases h5 with h | ⟨h, h'⟩ | ⟨h, h', h''⟩ <;> simp_all
    rw [this]
    simp [h4]

theorem tw_lowered (t : TW.TextOps) (rows : List (Nat × Option String)) (k : Nat) (r : List (Option Val))
    (h : ((rows.filter (fun r => r.1 = k)).map (fun r => r.2.map t.sqlLower)).mapM (TW.lowered t) = .ok r) (v : Val) :
    some v ∈ r ↔ ∃ s, (k, some s) ∈ rows ∧ v = .text (t.lower (t.sqlLower s)) := by
  rw [mem_mapM_ok _ _ _ h]
  constructor
  · rintro ⟨a, ha, hv⟩
    obtain ⟨⟨i, o⟩, hx, rfl⟩ := List.mem_map.1 ha
    obtain ⟨h1, h2⟩ := List.mem_filter.1 hx
    simp only [decide_eq_true_eq] at h2
    subst h2
    cases o with
    | none => cases hv
    | some s =>
      simp only [Option.map_some, TW.lowered, Except.ok.injEq, Option.some.injEq] at hv
      exact ⟨s, h1, hv.symm⟩
  · rintro ⟨s, h1, rfl⟩
    exact ⟨some (t.sqlLower s), List.mem_map.2 ⟨(k, some s), List.mem_filter.2 ⟨h1, by simp⟩, rfl⟩, rfl⟩

/-- A list with one optional value. -/
theorem mem_one {α : Type} (x : Option α) (g : α → Val) (v : Val) : some v ∈ (TW.one (x.map g)).items ↔ ∃ a, x = some a ∧ v = g a := by
  cases x with
  | none => simp [TW.one, Values.items]
  | some a => simp [TW.one, Values.items]

theorem tw_shows (t : TW.TextOps) (db : TW.Db) (hr : TwReadable t db) (x : TW.Tweet) (hx : x ∈ db.tweets) :
    ∃ f, TW.indexed t db (.int x.id) = .ok f ∧
      ∀ fld v, (∃ vs, (fld, vs) ∈ f ∧ some v ∈ vs.items) ↔ TwShows t db x fld v := by
  have h0 : TW.indexed t db (.int x.id) = (match TW.docOf t db x.id with | .error e => .error e | .ok d => TW.features t d) := rfl
  obtain ⟨x', hq, hq1, hq2⟩ := head?_filter_some (p := fun q : TW.Tweet => decide (q.id = x.id)) hx (by simp)
  simp only [decide_eq_true_eq] at hq2
  have : x' = x := List.inj_on_of_nodup_map hr.tweetIds hq1 hx hq2
  subst this
  obtain ⟨u0, hu0, hu0'⟩ := hr.users x' hx
  obtain ⟨u, hu, hu1, hu2⟩ := head?_filter_some (p := fun u : TW.UserRow => decide (u.user = x'.user)) hu0 (by simpa using hu0')
  simp only [decide_eq_true_eq] at hu2
  obtain ⟨f0, hf0, -⟩ := tw_indexed t db hr x' hx
  rw [h0] at hf0
  have hby : ∀ n, u.name = some n ↔ ∃ w ∈ db.usersLatest, w.user = x'.user ∧ w.name = some n := by
    intro n
    constructor
    · intro h; exact ⟨u, hu1, hu2, h⟩
    · rintro ⟨w, a, b, d⟩
      have : w = u := List.inj_on_of_nodup_map hr.latest a hu1 (by rw [b, hu2])
      rw [← this]; exact d
  cases hdoms : (TW.externalUrls t db x').mapM t.hostname with
  | error e => unfold TW.docOf at hf0; rw [hq] at hf0; dsimp only at hf0; rw [hdoms] at hf0; cases hf0
  | ok doms =>
  have hd : TW.docOf t db x'.id = .ok {
      tweet := x',
      labels := (db.collected.filter (fun r => r.1 = x'.id ∧ r.2.2 = true)).map (·.2.1),
      hashtags := (db.hashtags.filter (fun r => r.1 = x'.id)).map (fun r => r.2.map t.sqlLower),
      mentions := (db.mentions.filter (fun r => r.1 = x'.id)).map (fun r => r.2.map t.sqlLower),
      urls := TW.externalUrls t db x', domains := doms, username := u.name,
      repliedToUser := TW.relatedUser db x'.repliedTo, retweetedUser := TW.relatedUser db x'.retweeted,
      quotedUser := TW.relatedUser db x'.quoted } := by
    unfold TW.docOf
    rw [hq]
    dsimp only
    rw [hdoms]
    dsimp only
    rw [hu]
  rw [hd] at hf0
  rw [h0, hd]
  refine ⟨f0, hf0, ?_⟩
  dsimp only at hf0
  obtain ⟨dt, g1, g2⟩ := hr.dates x' hx
  have hcr : TW.createdFields t x'.created = .ok [
      ("created_minute", .seq [some (.text (t.iso { dt with second := 0, micro := 0 }))]),
      ("created_hour", .seq [some (.text (t.iso { dt with minute := 0, second := 0, micro := 0 }))]),
      ("created_day", .seq [some (.text (t.iso { dt with hour := 0, minute := 0, second := 0, micro := 0 }))]),
      ("created_month", .seq [some (.text (t.iso { dt with day := 1, hour := 0, minute := 0, second := 0, micro := 0 }))]),
      ("created_year", .seq [some (.text (t.iso { dt with month := 1, day := 1, hour := 0, minute := 0, second := 0, micro := 0 }))])] := by
    simp only [TW.createdFields, g1, round_ok dt g2]
    rfl
  have hdate : ∀ (cs : Features), TW.createdFields t x'.created = .ok cs → ∀ fld v, (∃ vs, (fld, vs) ∈ cs ∧ some v ∈ vs.items) ↔
      ∃ g n r, (g, n) ∈ granularities ∧ Truncates n dt r ∧ fld = "created_" ++ g ∧ v = .text (t.iso r) := by
    intro cs hcs fld v
    rw [hcr, Except.ok.injEq] at hcs
    subst hcs
    constructor
    · rintro ⟨vs, hm, hv⟩
      simp only [List.mem_cons, List.not_mem_nil, or_false, Prod.mk.injEq] at hm
      rcases hm with ⟨rfl, rfl⟩ | ⟨rfl, rfl⟩ | ⟨rfl, rfl⟩ | ⟨rfl, rfl⟩ | ⟨rfl, rfl⟩ <;>
        simp only [Values.items, List.mem_singleton, Option.some.injEq] at hv
      · exact ⟨"minute", 5, { dt with second := 0, micro := 0 }, by simp [granularities], ⟨rfl, rfl⟩, rfl, hv⟩
      · exact ⟨"hour", 4, { dt with minute := 0, second := 0, micro := 0 }, by simp [granularities], ⟨rfl, rfl⟩, rfl, hv⟩
      · exact ⟨"day", 3, { dt with hour := 0, minute := 0, second := 0, micro := 0 }, by simp [granularities], ⟨rfl, rfl⟩, rfl, hv⟩
      · exact ⟨"month", 2, { dt with day := 1, hour := 0, minute := 0, second := 0, micro := 0 }, by simp [granularities], ⟨rfl, rfl⟩, rfl, hv⟩
      · exact ⟨"year", 1, { dt with month := 1, day := 1, hour := 0, minute := 0, second := 0, micro := 0 }, by simp [granularities], ⟨rfl, rfl⟩, rfl, hv⟩
    · rintro ⟨g, n, r, hg, hT, rfl, rfl⟩
      simp only [granularities, List.mem_cons, List.not_mem_nil, or_false, Prod.mk.injEq] at hg
      rcases hg with ⟨rfl, rfl⟩ | ⟨rfl, rfl⟩ | ⟨rfl, rfl⟩ | ⟨rfl, rfl⟩ | ⟨rfl, rfl⟩
      · have := truncates_unique hT (show Truncates 1 dt { dt with month := 1, day := 1, hour := 0, minute := 0, second := 0, micro := 0 } from ⟨rfl, rfl⟩)
        subst this
        exact ⟨_, .tail _ (.tail _ (.tail _ (.tail _ (.head _)))), by simp [Values.items]⟩
      · have := truncates_unique hT (show Truncates 2 dt { dt with day := 1, hour := 0, minute := 0, second := 0, micro := 0 } from ⟨rfl, rfl⟩)
        subst this
        exact ⟨_, .tail _ (.tail _ (.tail _ (.head _))), by simp [Values.items]⟩
      · have := truncates_unique hT (show Truncates 3 dt { dt with hour := 0, minute := 0, second := 0, micro := 0 } from ⟨rfl, rfl⟩)
        subst this
        exact ⟨_, .tail _ (.tail _ (.head _)), by simp [Values.items]⟩
      · have := truncates_unique hT (show Truncates 4 dt { dt with minute := 0, second := 0, micro := 0 } from ⟨rfl, rfl⟩)
        subst this
        exact ⟨_, .tail _ (.head _), by simp [Values.items]⟩
      · have := truncates_unique hT (show Truncates 5 dt { dt with second := 0, micro := 0 } from ⟨rfl, rfl⟩)
        subst this
        exact ⟨_, .head _, by simp [Values.items]⟩
  unfold TW.features at hf0
  dsimp only at hf0
  cases hcs : TW.createdFields t x'.created with
  | error e => rw [hcs] at hf0; cases hf0
  | ok cs =>
  rw [hcs] at hf0
  dsimp only at hf0
  have hdate' := hdate cs hcs
  have hsplit : ∀ l : Features, f0 = l ++ cs → ∀ fld v, (∃ vs, (fld, vs) ∈ f0 ∧ some v ∈ vs.items) ↔
      (∃ vs, (fld, vs) ∈ l ∧ some v ∈ vs.items) ∨
      ∃ g n r, (g, n) ∈ granularities ∧ Truncates n dt r ∧ fld = "created_" ++ g ∧ v = .text (t.iso r) := by
    rintro l rfl fld v
    rw [← hdate']
    simp only [List.mem_append, or_and_right, exists_or]
  have hold : ∀ fld v, (∃ g n r, (g, n) ∈ granularities ∧ Truncates n dt r ∧ fld = "created_" ++ g ∧ v = .text (t.iso r)) →
      TwShows t db x' fld v := by
    rintro fld v ⟨g, n, r, h1, h2, rfl, rfl⟩
    exact .created g n dt r g1 h1 h2
  have hnew : ∀ g n d r, t.parseDate x'.created = .ok d → (g, n) ∈ granularities → Truncates n d r →
      ∃ g' n' r', (g', n') ∈ granularities ∧ Truncates n' dt r' ∧ "created_" ++ g = "created_" ++ g' ∧
        Val.text (t.iso r) = .text (t.iso r') := by
    intro g n d r h1 h2 h3
    rw [g1, Except.ok.injEq] at h1
    subst h1
    exact ⟨g, n, r, h2, h3, rfl, rfl⟩
  intro fld v
  by_cases hrt : x'.retweeted = none
  · rw [if_pos hrt] at hf0
    unfold TW.originalFields at hf0
    dsimp only at hf0
    split at hf0
    · cases hf0
    rename_i l hl
    split at hl
    · cases hl
    rename_i tags htags
    split at hl
    · cases hl
    rename_i ments hments
    cases hl
    have hT := tw_lowered t db.hashtags x'.id tags htags
    have hM := tw_lowered t db.mentions x'.id ments hments
    have hD := mem_mapM_ok _ _ _ hdoms
    rw [hsplit _ (by cases hf0; rfl)]
    constructor
    · rintro (⟨vs, hm, hv⟩ | h)
      · simp only [List.mem_cons, List.not_mem_nil, or_false, Prod.mk.injEq] at hm
        rcases hm with ⟨rfl, rfl⟩ | ⟨rfl, rfl⟩ | ⟨rfl, rfl⟩ | ⟨rfl, rfl⟩ | ⟨rfl, rfl⟩ | ⟨rfl, rfl⟩ | ⟨rfl, rfl⟩ | ⟨rfl, rfl⟩ |
          ⟨rfl, rfl⟩ | ⟨rfl, rfl⟩ | ⟨rfl, rfl⟩ | ⟨rfl, rfl⟩
        · simp only [Values.items, List.mem_map, Option.some.injEq] at hv
          obtain ⟨w, hw, rfl⟩ := hv
          exact .text w hrt hw
        · obtain ⟨w, hw, rfl⟩ := (hT v).1 hv
          exact .hashtag w hrt hw
        · obtain ⟨w, hw, rfl⟩ := (hM v).1 hv
          exact .mention w hrt hw
        · obtain ⟨i, hi, rfl⟩ := (mem_one _ _ v).1 hv
          exact .conversation i hrt hi
        · obtain ⟨n, hn, rfl⟩ := (mem_one _ _ v).1 hv
          exact .author u n hu1 hu2 hn
        · simp only [Values.items, List.mem_map, Option.some.injEq] at hv
          obtain ⟨w, hw, rfl⟩ := hv
          exact .url w hrt ((tw_link t db x' w).1 hw)
        · simp only [Values.items, List.mem_map, Option.map_eq_some_iff] at hv
          obtain ⟨o, ho, h, rfl, rfl⟩ := hv
          obtain ⟨a, ha, hb⟩ := (hD (some h)).1 ho
          exact .domain a h hrt ((tw_link t db x' a).1 ha) hb
        · obtain ⟨i, hi, rfl⟩ := (mem_one _ _ v).1 hv
          exact .quoted i hrt hi
        · obtain ⟨n, hn, rfl⟩ := (mem_one _ _ v).1 hv
          exact .quotedUser n hrt ((tw_author t db hr _ n).1 hn)
        · obtain ⟨i, hi, rfl⟩ := (mem_one _ _ v).1 hv
          exact .replied i hrt hi
        · obtain ⟨n, hn, rfl⟩ := (mem_one _ _ v).1 hv
          exact .repliedUser n hrt ((tw_author t db hr _ n).1 hn)
        · simp only [Values.items, List.mem_map, Option.some.injEq] at hv
          obtain ⟨w, ⟨⟨a, b, d⟩, hr', rfl⟩, rfl⟩ := hv
          obtain ⟨k1, k2⟩ := List.mem_filter.1 hr'
          simp only [decide_eq_true_eq] at k2
          obtain ⟨rfl, rfl⟩ := k2
          exact .label b hrt k1
      · exact hold fld v h
    · intro h
      cases h with
      | created g n d r h1 h2 h3 => exact .inr (hnew g n d r h1 h2 h3)
      | text w _ hw => exact .inl ⟨_, .head _, by simpa [Values.items] using hw⟩
      | hashtag w _ hw => exact .inl ⟨_, .tail _ (.head _), (hT _).2 ⟨w, hw, rfl⟩⟩
      | mention w _ hw => exact .inl ⟨_, .tail _ (.tail _ (.head _)), (hM _).2 ⟨w, hw, rfl⟩⟩
      | conversation i _ hi => exact .inl ⟨_, .tail _ (.tail _ (.tail _ (.head _))), (mem_one _ _ _).2 ⟨i, hi, rfl⟩⟩
      | author w n h1 h2 h3 =>
        exact .inl ⟨_, .tail _ (.tail _ (.tail _ (.tail _ (.head _)))), (mem_one _ _ _).2 ⟨n, (hby n).2 ⟨w, h1, h2, h3⟩, rfl⟩⟩
      | url w _ hw =>
        exact .inl ⟨_, .tail _ (.tail _ (.tail _ (.tail _ (.tail _ (.head _))))),
          by simpa [Values.items] using (tw_link t db x' w).2 hw⟩
      | domain w h _ h1 h2 =>
        exact .inl ⟨_, .tail _ (.tail _ (.tail _ (.tail _ (.tail _ (.tail _ (.head _)))))),
          List.mem_map.2 ⟨some h, (hD (some h)).2 ⟨w, (tw_link t db x' w).2 h1, h2⟩, rfl⟩⟩
      | quoted i _ hi =>
        exact .inl ⟨_, .tail _ (.tail _ (.tail _ (.tail _ (.tail _ (.tail _ (.tail _ (.head _))))))),
          (mem_one _ _ _).2 ⟨i, hi, rfl⟩⟩
      | quotedUser n _ hn =>
        exact .inl ⟨_, .tail _ (.tail _ (.tail _ (.tail _ (.tail _ (.tail _ (.tail _ (.tail _ (.head _)))))))),
          (mem_one _ _ _).2 ⟨n, (tw_author t db hr _ n).2 hn, rfl⟩⟩
      | replied i _ hi =>
        exact .inl ⟨_, .tail _ (.tail _ (.tail _ (.tail _ (.tail _ (.tail _ (.tail _ (.tail _ (.tail _ (.head _))))))))),
          (mem_one _ _ _).2 ⟨i, hi, rfl⟩⟩
      | repliedUser n _ hn =>
        exact .inl ⟨_, .tail _ (.tail _ (.tail _ (.tail _ (.tail _ (.tail _ (.tail _ (.tail _ (.tail _ (.tail _ (.head _)))))))))),
          (mem_one _ _ _).2 ⟨n, (tw_author t db hr _ n).2 hn, rfl⟩⟩
      | label w _ hw =>
        exact .inl ⟨_, .tail _ (.tail _ (.tail _ (.tail _ (.tail _ (.tail _ (.tail _ (.tail _ (.tail _ (.tail _ (.tail _ (.head _))))))))))),
          List.mem_map.2 ⟨w, List.mem_map.2 ⟨_, List.mem_filter.2 ⟨hw, by simp⟩, rfl⟩, rfl⟩⟩
      | retweeted i hi => rw [hrt] at hi; cases hi
      | retweetedUser n hn _ => exact absurd hrt hn
  · rw [if_neg hrt] at hf0
    rw [hsplit _ (by cases hf0; rfl)]
    unfold TW.retweetFields
    constructor
    · rintro (⟨vs, hm, hv⟩ | h)
      · simp only [List.mem_cons, List.not_mem_nil, or_false, Prod.mk.injEq] at hm
        rcases hm with ⟨rfl, rfl⟩ | ⟨rfl, rfl⟩ | ⟨rfl, rfl⟩
        · obtain ⟨n, hn, rfl⟩ := (mem_one _ _ v).1 hv
          exact .author u n hu1 hu2 hn
        · obtain ⟨i, hi, rfl⟩ := (mem_one _ _ v).1 hv
          exact .retweeted i hi
        · obtain ⟨n, hn, rfl⟩ := (mem_one _ _ v).1 hv
          exact .retweetedUser n hrt ((tw_author t db hr _ n).1 hn)
      · exact hold fld v h
    · intro h
      cases h with
      | created g n d r h1 h2 h3 => exact .inr (hnew g n d r h1 h2 h3)
      | author w n h1 h2 h3 => exact .inl ⟨_, .head _, (mem_one _ _ _).2 ⟨n, (hby n).2 ⟨w, h1, h2, h3⟩, rfl⟩⟩
      | retweeted i hi => exact .inl ⟨_, .tail _ (.head _), (mem_one _ _ _).2 ⟨i, hi, rfl⟩⟩
      | retweetedUser n _ hn =>
        exact .inl ⟨_, .tail _ (.tail _ (.head _)), (mem_one _ _ _).2 ⟨n, (tw_author t db hr _ n).2 hn, rfl⟩⟩
      | text w h' _ | hashtag w h' _ | mention w h' _ | conversation w h' _ | url w h' _ | quoted w h' _ | quotedUser w h' _
      | replied w h' _ | repliedUser w h' _ | label w h' _ => exact absurd h' hrt
      | domain w h h' _ _ => exact absurd h' hrt

/-- **C66, Twittersphere.** After indexing, every directly collected tweet has an id in the index, every id found stands for
one, and the tweet is found under a (field, value) exactly when the database shows it. -/
theorem twittersphere_finds (t : TW.TextOps) (tw : TW.Db) (hr : TwReadable t tw) (cfg : IndexCfg) (s : Schedule) (hf : Fair s)
    (c : Conn DB) (db : DB) (hc : Idle c db) (hp : Pending db) (h : (indexCall (TW.corpus t tw) cfg s c).2 = .ok ()) :
    ∃ new, Idle (indexCall (TW.corpus t tw) cfg s c).1 new ∧
      (∀ x ∈ tw.tweets, x.id ∈ tw.direct → ∃ i, (i, .int x.id) ∈ new.docKeys) ∧
      (∀ f v i, i ∈ new.docsOfKey f v → ∃ x ∈ tw.tweets, x.id ∈ tw.direct ∧ (i, .int x.id) ∈ new.docKeys) ∧
      ∀ x ∈ tw.tweets, ∀ i, (i, .int x.id) ∈ new.docKeys → ∀ f v, i ∈ new.docsOfKey f v ↔ TwShows t tw x f v := by
  obtain ⟨hs, hk⟩ := tw_serves t tw hr
  obtain ⟨new, h1, h2, h3, -, h4, h5⟩ := index_finds hc hp hs hf h
  refine ⟨new, h1, ?_, ?_, ?_⟩
  · intro x hx hd
    exact h2 _ ((hk _).2 ⟨x, hx, hd, rfl⟩)
  · intro f v i hi
    obtain ⟨k, hk'⟩ := h4 f v i hi
    obtain ⟨x, hx, hd, rfl⟩ := (hk k).1 (h3 i k hk')
    exact ⟨x, hx, hd, hk'⟩
  · intro x hx i hi f v
    rw [h5 i _ hi]
    obtain ⟨g, hg, hg'⟩ := tw_shows t tw hr x hx
    rw [okOr_eq hg]
    exact hg' f v

/-- A Twittersphere database is opened exactly when it says its version and the version is at least 15. -/
theorem twittersphere_opens_iff (db : TW.Db) : TW.opens db = .ok () ↔ ∃ v, db.version = some v ∧ 15 ≤ v := by
  unfold TW.opens
  cases db.version with
  | none => simp
  | some v =>
    by_cases h : v < 15
    · simp [h]
    · simp [h]; omega

/-! ## Examples -/

/-- Text functions for the examples: a text that is not empty is one token. -/
def fieldOps : SX.TextOps := { sxOps with tokens := fun s => if s = "" then [] else [s] }

/-- The hypotheses of `dump_to_index` hold for the sample dump; the answer in it (the second document) is then found under
the tags of its question, under the name of its commenter, and not under the title of the question. -/
example : fieldOps.tokens "" = [] ∧ Tidy sampleDump ∧ DumpReadable fieldOps sampleDump ∧ considered sampleDump ≠ [] ∧
    ∃ r, (considered sampleDump)[1]? = some r ∧ SxShows fieldOps (docFrom sampleDump "site" 1 r) "Tag" "b" ∧
      SxShows fieldOps (docFrom sampleDump "site" 1 r) "UserCommenting" "ann" ∧
      SxShows fieldOps (docFrom sampleDump "site" 1 r) "Post" "B" ∧
      ¬ SxShows fieldOps (docFrom sampleDump "site" 1 r) "Post" "T" := by
  refine ⟨rfl, sampleDump_tidy, ⟨?_, fun _ _ b _ _ => ⟨([], b), rfl⟩, by decide +kernel⟩, by decide +kernel,
    { typeId := some "2", id := some 7, parent := some 5, body := some "B", created := some "2020-01-02" }, by decide +kernel,
    .tag "b" (by decide +kernel), .commenter "ann" (some "c") (by decide +kernel), .body "B" [] "B" "B" rfl (by decide) rfl (by decide), ?_⟩
  · intro r hr
    have : ∀ r ∈ considered sampleDump, r.created ≠ none := by decide +kernel
    obtain ⟨s, hs⟩ := Option.ne_none_iff_exists'.1 (this r hr)
    exact ⟨s, _, hs, rfl, by decide⟩
  · intro h
    generalize hf : "Post" = f at h
    generalize hw : "T" = w at h
    cases h <;> try (exact absurd hf (by decide))
    · rename_i s h1 h2
      cases h1
    · rename_i b codes text h1 h2 h3 h4
      cases h1
      cases h3
      subst hw
      revert h4
      decide
    · rename_i s g n d r h1 h2 h3 h4
      simp only [List.mem_cons, List.not_mem_nil, or_false, Prod.mk.injEq] at h3
      rcases h3 with ⟨rfl, -⟩ | ⟨rfl, -⟩ | ⟨rfl, -⟩ <;> exact absurd hf (by decide)

/-- The database of the import examples, with a user, meets the hypotheses of `stack_exchange_finds`. -/
example : SxWellformed sxDb ∧ (∀ u ∈ sxDb.users, ∀ v ∈ sxDb.users, u.key ≠ none → u.key = v.key → u = v) ∧
    SxReadable fieldOps sxDb := by
  refine ⟨sxDb_wellformed, by decide, ⟨?_, fun _ _ b _ _ => ⟨([], b), rfl⟩, by decide⟩⟩
  intro p hp
  have : ∀ p ∈ sxDb.posts, p.created ≠ none := by decide
  obtain ⟨s, hs⟩ := Option.ne_none_iff_exists'.1 (this p hp)
  exact ⟨s, _, hs, rfl, by decide⟩

/-- The linked tweets can be read and indexed; tweet 1 is found under its link, and under the author of the tweet it
replies to. -/
example : TwReadable twOps linkedTweets ∧
    (indexCall (TW.corpus twOps linkedTweets) { demoCfg with positions := false } demoSchedule (Conn.fresh demoModel)).2 = .ok () ∧
    ∃ x ∈ linkedTweets.tweets, x.id ∈ linkedTweets.direct ∧ TwShows twOps linkedTweets x "url" (.text "http://a") ∧
      TwShows twOps linkedTweets x "replied_to_user" (.text "ann") ∧ TwShows twOps linkedTweets x "quoted_tweet_id" (.int 2) := by
  have hr : TwReadable twOps linkedTweets := linkedTweets_readable [2, 1] (by decide) (by decide)
  have hi : Idle (Conn.fresh demoModel) demoModel := ⟨rfl, rfl, rfl, rfl, rfl, rfl⟩
  refine ⟨hr, (twittersphere_indexes_partial twOps _ hr (by decide) _ demoSchedule demo_fair (fun _ => rfl) _ _ hi
      demoModel_settled).2 (fun h => by cases h), ⟨1, 10, "r", "2020", "hello", some 1, none, some 2, some 3⟩, by decide, by decide,
    .url _ rfl ⟨⟨1, "r", none, some "http://a", some "x"⟩, by decide, rfl, rfl, by decide, .inr (.inl ⟨rfl, rfl⟩)⟩,
    .repliedUser _ rfl ⟨⟨3, 10, "r", "2020", "hi", some 1, none, none, none⟩, by decide, rfl, ⟨10, "r", some "ann"⟩, by decide, rfl, rfl, rfl⟩,
    .quoted 2 rfl rfl⟩

example : TW.opens linkedTweets = .ok () ∧ TW.opens { linkedTweets with version := some 14 } ≠ .ok () ∧
    TW.opens { linkedTweets with version := none } ≠ .ok () := by decide +kernel

end Hyperreal.Props
