import Verif.Lemmas.IndexCall
import Verif.Lemmas.FieldSummary
import Verif.Props.Store
import Verif.Props.Atomic

/-!
# Properties of `Index.index` (C06-C14, C47)

`indexCall corpus cfg s c` executes `index` on the connection `c`; `s` is everything the call does not control (which
batches finish first, the order of rows and groups, and exceptions striking at any step).
-/

namespace Hyperreal.Props
open Spec DB Atomic

/-! ## A corpus to test the hypotheses on -/

/-- Three documents: repeated tokens, a `None` tag, an empty sequence. -/
def demoContent : Val → Features
  | .int 0 => [("text", .seq [some (.int 7), some (.int 8), some (.int 7)]), ("tag", .bag [some (.int 1), none])]
  | .int 1 => [("text", .seq [])]
  | .int 2 => [("text", .seq [some (.int 8)])]
  | _ => []

/-- A corpus serving `demoContent`. -/
def demoCorpus : Corpus := { keys := [.int 0, .int 1, .int 2], docs := fun ks => .ok (ks.map demoContent) }

/-- Futures finish in the order of submission (the list of futures is newest first); batches of two documents. -/
def demoSchedule : Schedule :=
  { pick := fun fs => (fs.drop (fs.length - 1), fs.take (fs.length - 1)), segOrder := List.reverse, posOrder := id,
    groupOrder := List.reverse }

def demoCfg : IndexCfg := { size := 2, workers := 1, positions := true }

theorem demo_serves : Serves demoCorpus demoContent where
  keys := by decide
  docs := by intro ks _; rfl
  fields := by decide

theorem demo_indexable : Indexable demoCorpus demoContent true := by
  intro _ k hk f vs h
  simp only [demoCorpus, List.mem_cons, List.not_mem_nil, or_false] at hk
  rcases hk with rfl | rfl | rfl <;> simp [demoContent] at h
  · rw [h.2]; decide
  · rw [h.2]; decide
  · rw [h.2]; decide

theorem demo_fair : Fair demoSchedule where
  pick := by
    intro fs
    exact (List.perm_append_comm).trans (by rw [demoSchedule]; simp)
  segs := fun l => List.reverse_perm l
  pos := fun l => List.Perm.refl l
  groups := fun l => List.reverse_perm l

/-! ## Success -/

/-- What is known when `index` returns normally. -/
theorem index_success {corpus : Corpus} {content : Val → Features} {cfg : IndexCfg} {s : Schedule} {c : Conn DB} {db : DB}
    (hc : Idle c db) (hp : Pending db) (hs : Serves corpus content) (hf : Fair s)
    (h : (indexCall corpus cfg s c).2 = .ok ()) :
    Indexable corpus content cfg.positions ∧ corpus.keys ≠ [] ∧ db.changed = [] ∧
    ∃ new, Idle (indexCall corpus cfg s c).1 new ∧ Settled new ∧
      (new.features = (reindexed corpus cfg s db).features ∧ new.fc = (reindexed corpus cfg s db).fc ∧
        new.docKeys = (reindexed corpus cfg s db).docKeys ∧ new.posDocMap = (reindexed corpus cfg s db).posDocMap ∧
        new.posIndex = (reindexed corpus cfg s db).posIndex ∧
        new.fieldSummary = (reindexed corpus cfg s db).fieldSummary) ∧
      (∀ k' ∈ new.clusters, ∃ k ∈ db.clusters, k.cid = k'.cid ∧ k.pinned = k'.pinned) ∧
      (∀ k ∈ db.clusters, (∃ r ∈ db.fc, r.cid = k.cid) → ∃ k' ∈ new.clusters, k'.cid = k.cid) := by
  have hend := indexCall_end corpus cfg s c db hc
  generalize indexCall corpus cfg s c = res at h hend
  cases hend with
  | old c' e h1 h2 h3 h4 => cases h
  | mid c' e w h1 h2 h3 h4 h5 => cases h
  | new c' w f h1 h2 h3 h4 =>
    obtain ⟨hi, hne, hch, rfl⟩ := phase1_ok hs hf hp h1
    have hP := reindexed_pending (s := s) hs hi hf hp.toWellformed
    obtain ⟨db', e1, e2, e3, e4, ⟨e5, e6, e7, e8⟩, e9, e10⟩ := updateChanged_spec hP rfl
    rw [h2] at e1
    simp only [Prod.mk.injEq, and_true] at e1
    subst e1
    refine ⟨hi, hne, hch, f, h3, e2, ⟨e3, e4, e5, e6, e7, e8⟩, ?_, ?_⟩
    · intro k' hk'
      obtain ⟨k, a, b⟩ := e9 k' hk'
      rw [reindexed_clusters hp.toWellformed] at a
      exact ⟨k, a, b⟩
    · intro k hk hne'
      obtain ⟨r, hr, hrc⟩ := hne'
      refine e10 k (by rw [reindexed_clusters hp.toWellformed]; exact hk) ?_
      have hm := (reindexed_preserves (corpus := corpus) (cfg := cfg) (s := s) hp.toWellformed).model
      have : (r.fid, r.cid, r.pinned) ∈ (reindexed corpus cfg s db).fc.map (fun r => (r.fid, r.cid, r.pinned)) := by
        rw [hm]; exact List.mem_map.2 ⟨r, hr, rfl⟩
      obtain ⟨r', hr', e⟩ := List.mem_map.1 this
      simp only [Prod.mk.injEq] at e
      exact ⟨r', hr', e.2.1.trans hrc⟩

/-- Without faults, `index` succeeds on every settled database for every non-empty corpus that keeps its contract. -/
theorem index_succeeds {corpus : Corpus} {content : Val → Features} {cfg : IndexCfg} {s : Schedule} {c : Conn DB} {db : DB}
    (hc : Idle c db) (hp : Settled db) (hs : Serves corpus content) (hi : Indexable corpus content cfg.positions)
    (hf : Fair s) (hne : corpus.keys ≠ []) (hno : ∀ i, s.fault i = none) :
    (indexCall corpus cfg s c).2 = .ok () := by
  have hw := hp.toWellformed
  have h1 := phase1_result hs hi hf hne hw hp.nothingPending
  have hend := indexCall_end corpus cfg s c db hc
  generalize indexCall corpus cfg s c = res at hend ⊢
  cases hend with
  | old c' e _ _ _ h4 => rw [h4 hno] at h1; cases h1
  | mid c' e w h2 _ _ _ h5 =>
    rw [h1] at h2
    simp only [Except.ok.injEq] at h2
    subst h2
    obtain ⟨db', e1, -⟩ := updateChanged_spec (reindexed_pending (s := s) hs hi hf hw) rfl
    have := h5 (fun i _ => hno i)
    rw [e1] at this
    cases this
  | new c' w f _ _ _ _ => rfl

example : Idle (Conn.fresh demoModel) demoModel ∧ Settled demoModel ∧ Serves demoCorpus demoContent ∧
    Indexable demoCorpus demoContent demoCfg.positions ∧ Fair demoSchedule ∧ demoCorpus.keys ≠ [] ∧
    (∀ i, demoSchedule.fault i = none) :=
  ⟨⟨rfl, rfl, rfl, rfl, rfl, rfl⟩, demoModel_settled, demo_serves, demo_indexable, demo_fair, by decide, fun _ => rfl⟩

/-- **C06.** When `index` returns normally — whatever the batch size, number of workers, completion order and previous
content — the lookup of a (field, value), or of a feature id, gives exactly the documents that contain the value in
the field, and the lookup of an unknown id gives nothing. -/
theorem index_lookup {corpus : Corpus} {content : Val → Features} {cfg : IndexCfg} {s : Schedule} {c : Conn DB} {db : DB}
    (hc : Idle c db) (hp : Pending db) (hs : Serves corpus content) (hf : Fair s)
    (h : (indexCall corpus cfg s c).2 = .ok ()) :
    ∃ new, Idle (indexCall corpus cfg s c).1 new ∧
      (∀ field value d, d ∈ new.docsOfKey field value ↔ Occurs corpus content field value d) ∧
      (∀ r ∈ new.features, ∀ d, d ∈ new.docsOf r.fid ↔ Occurs corpus content r.field r.value d) ∧
      (∀ f, (∀ r ∈ new.features, r.fid ≠ f) → new.docsOf f = ∅) := by
  obtain ⟨hi, -, -, new, h1, -, ⟨h3, -⟩, -⟩ := index_success hc hp hs hf h
  have hI := reindexed_isIndex (s := s) hs hi hf hp.toWellformed
  refine ⟨new, h1, ?_, ?_, ?_⟩
  · intro f v d
    rw [← hI.lookup f v d]
    simp only [docsOfKey, h3]
  · intro r hr d
    rw [h3] at hr
    rw [← hI.featureLookup r hr d]
    simp only [docsOf, feature?, h3]
  · intro f hno
    simp only [docsOf]
    cases hfd : new.feature? f with
    | none => rfl
    | some r =>
      have e := List.find?_some hfd
      simp only [decide_eq_true_eq] at e
      exact absurd e (hno r (List.mem_of_find?_eq_some hfd))

/-- **C07.** When `index` returns normally every stored count is the number of documents: for each feature, and for each
feature in the model. -/
theorem index_counts {corpus : Corpus} {content : Val → Features} {cfg : IndexCfg} {s : Schedule} {c : Conn DB} {db : DB}
    (hc : Idle c db) (hp : Pending db) (hs : Serves corpus content) (hf : Fair s)
    (h : (indexCall corpus cfg s c).2 = .ok ()) :
    ∃ new, Idle (indexCall corpus cfg s c).1 new ∧
      (∀ r ∈ new.features, ∀ D : Finset Nat, (∀ d, d ∈ D ↔ Occurs corpus content r.field r.value d) →
        r.docsCount = D.card) ∧
      (∀ r ∈ new.fc, ∃ f ∈ new.features, f.fid = r.fid ∧ f.docsCount = r.docsCount) := by
  obtain ⟨hi, -, -, new, h1, h2, ⟨h3, -⟩, -⟩ := index_success hc hp hs hf h
  refine ⟨new, h1, ?_, h2.knownFeature⟩
  intro r hr D hD
  rw [h3] at hr
  obtain ⟨a, b⟩ := reindexed_row hs hi hf hp.toWellformed hr
  rw [a]
  congr 1
  ext d
  rw [b d, hD d]

/-- **C08.** When `index` returns normally, features known before keep their id, other features get ids that were not
used, ids are unique, the model keeps its assignment and pins, and a feature that no longer occurs matches nothing. -/
theorem index_keeps_features {corpus : Corpus} {content : Val → Features} {cfg : IndexCfg} {s : Schedule} {c : Conn DB}
    {db : DB} (hc : Idle c db) (hp : Pending db) (hs : Serves corpus content) (hf : Fair s)
    (h : (indexCall corpus cfg s c).2 = .ok ()) :
    ∃ new, Idle (indexCall corpus cfg s c).1 new ∧ Reindexed db new ∧ (new.features.map (·.fid)).Nodup ∧
      (new.features.map (fun r => (r.field, r.value))).Nodup ∧
      (∀ f, assign new f = assign db f) ∧ (∀ f, featurePin new f = featurePin db f) ∧
      (∀ r ∈ new.features, (∀ d, ¬ Occurs corpus content r.field r.value d) → r.docs = ∅ ∧ r.docsCount = 0) := by
  obtain ⟨hi, -, -, new, h1, h2, ⟨h3, h4, -⟩, -⟩ := index_success hc hp hs hf h
  have hR := reindexed_preserves (corpus := corpus) (cfg := cfg) (s := s) hp.toWellformed
  have hm : new.fc.map (fun r => (r.fid, r.cid, r.pinned)) = db.fc.map (fun r => (r.fid, r.cid, r.pinned)) := by
    rw [h4]; exact hR.model
  have key : ∀ (l l' : List FCRow), l.map (fun r => (r.fid, r.cid, r.pinned)) = l'.map (fun r => (r.fid, r.cid, r.pinned)) →
      ∀ f, (l.find? (fun r => r.fid = f)).map (·.cid) = (l'.find? (fun r => r.fid = f)).map (·.cid) ∧
        (l.find? (fun r => r.fid = f)).map (·.pinned) = (l'.find? (fun r => r.fid = f)).map (·.pinned) := by
    intro l
    induction l with
    | nil =>
      intro l' e f
      have : l' = [] := by simpa using e.symm
      subst this; exact ⟨rfl, rfl⟩
    | cons a l ih =>
      intro l' e f
      cases l' with
      | nil => simp at e
      | cons b l' =>
        simp only [List.map_cons, List.cons.injEq, Prod.mk.injEq] at e
        obtain ⟨⟨e1, e2, e3⟩, e4⟩ := e
        by_cases hfa : a.fid = f
        · have hfb : b.fid = f := e1 ▸ hfa
          simp [List.find?_cons, hfa, hfb, e2, e3]
        · have hfb : ¬ b.fid = f := fun h => hfa (e1.trans h)
          rw [List.find?_cons_of_neg (by simpa using hfa), List.find?_cons_of_neg (by simpa using hfb)]
          exact ih l' e4 f
  refine ⟨new, h1, ⟨?_, ?_, hm⟩, h2.featureIds, h2.featureKeys, fun f => (key _ _ hm f).1, fun f => (key _ _ hm f).2, ?_⟩
  · rw [h3]; exact hR.kept
  · rw [h3]; exact hR.fresh
  · intro r hr hno
    rw [h3] at hr
    obtain ⟨a, b⟩ := reindexed_row hs hi hf hp.toWellformed hr
    have : r.docs = ∅ := by
      rw [Finset.eq_empty_iff_forall_notMem]
      intro d hd
      exact hno d ((b d).1 hd)
    exact ⟨this, by rw [a, this]; rfl⟩

/-- Reindexing the demo model: "text"/1 and "user"/1 are unknown to the new corpus and keep ids 1-3; new features come after. -/
example : ((indexCall demoCorpus demoCfg demoSchedule (Conn.fresh demoModel)).1.committed.features.map
      (fun r => (r.fid, r.field, r.docsCount))) =
    [(1, "text", 0), (2, "text", 0), (3, "user", 0), (4, "text", 1), (5, "text", 2), (6, "tag", 1)] := by
  decide +kernel

/-! ## Keys -/

theorem convertQuery_spec (db : DB) (q : List Nat) :
    (∀ r, convertQuery db q = .ok r → r.map (·.2) = q ∧ ∀ x ∈ r, (x.2, x.1) ∈ db.docKeys) ∧
    ((∃ d ∈ q, ∀ k, (d, k) ∉ db.docKeys) → convertQuery db q = .error .indexError) ∧
    ((∀ d ∈ q, ∃ k, (d, k) ∈ db.docKeys) → ∃ r, convertQuery db q = .ok r) := by
  induction q with
  | nil => exact ⟨by intro r h; simp [convertQuery] at h; subst h; simp, by simp, fun _ => ⟨[], rfl⟩⟩
  | cons d q ih =>
    obtain ⟨i1, i2, i3⟩ := ih
    cases hd : db.docKeys.find? (fun x => x.1 = d) with
    | none =>
      have hno : ∀ k, (d, k) ∉ db.docKeys := by
        intro k hk
        rw [List.find?_eq_none] at hd
        exact absurd (hd _ hk) (by simp)
      refine ⟨by intro r h; simp [convertQuery, hd] at h, fun _ => by simp [convertQuery, hd], ?_⟩
      intro h
      obtain ⟨k, hk⟩ := h d (by simp)
      exact absurd hk (hno k)
    | some k =>
      have hk := List.mem_of_find?_eq_some hd
      have hkd := List.find?_some hd
      simp only [decide_eq_true_eq] at hkd
      refine ⟨?_, ?_, ?_⟩
      · intro r h
        simp only [convertQuery, hd] at h
        split at h
        · cases h
        · rename_i r' hr'
          simp only [Except.ok.injEq] at h
          subst h
          obtain ⟨j1, j2⟩ := i1 r' hr'
          refine ⟨by simp [j1], ?_⟩
          intro x hx
          rcases List.mem_cons.1 hx with rfl | hx
          · simpa [← hkd] using hk
          · exact j2 x hx
      · rintro ⟨d', hd', hno⟩
        rcases List.mem_cons.1 hd' with rfl | hd'
        · exact absurd (by rw [← hkd]; exact hk) (hno k.2)
        · simp [convertQuery, hd, i2 ⟨d', hd', hno⟩]
      · intro h
        obtain ⟨r, hr⟩ := i3 (fun x hx => h x (by simp [hx]))
        exact ⟨(k.2, d) :: r, by simp [convertQuery, hd, hr]⟩

/-- **C09.** When `index` returns normally: document ids are the positions of the keys in `corpus.keys()`, each id has
exactly one key and each key one id; converting a query gives exactly its ids, each with its key, and raises when
some id is not indexed. -/
theorem index_keys {corpus : Corpus} {content : Val → Features} {cfg : IndexCfg} {s : Schedule} {c : Conn DB} {db : DB}
    (hc : Idle c db) (hp : Pending db) (hs : Serves corpus content) (hf : Fair s)
    (h : (indexCall corpus cfg s c).2 = .ok ()) :
    ∃ new, Idle (indexCall corpus cfg s c).1 new ∧
      (∀ d k, (d, k) ∈ new.docKeys ↔ corpus.keys[d]? = some k) ∧
      (∀ d k k', (d, k) ∈ new.docKeys → (d, k') ∈ new.docKeys → k = k') ∧
      (∀ d d' k, (d, k) ∈ new.docKeys → (d', k) ∈ new.docKeys → d = d') ∧
      (∀ q : List Nat, (∀ d ∈ q, d < corpus.keys.length) →
        ∃ r, convertQuery new q = .ok r ∧ r.map (·.2) = q ∧ ∀ x ∈ r, corpus.keys[x.2]? = some x.1) ∧
      (∀ q : List Nat, (∃ d ∈ q, corpus.keys.length ≤ d) → convertQuery new q = .error .indexError) := by
  obtain ⟨hi, -, -, new, h1, h2, ⟨-, -, h3, -⟩, -⟩ := index_success hc hp hs hf h
  have hI := reindexed_isIndex (s := s) hs hi hf hp.toWellformed
  have hk : ∀ d k, (d, k) ∈ new.docKeys ↔ corpus.keys[d]? = some k := by intro d k; rw [h3]; exact hI.docKeys d k
  refine ⟨new, h1, hk, ?_, ?_, ?_, ?_⟩
  · intro d k k' a b
    rw [hk] at a b
    rw [a] at b
    exact Option.some.inj b
  · intro d d' k a b
    rw [hk] at a b
    obtain ⟨l1, e1⟩ := List.getElem?_eq_some_iff.1 a
    obtain ⟨l2, e2⟩ := List.getElem?_eq_some_iff.1 b
    exact (List.Nodup.getElem_inj_iff hs.keys).1 (e1.trans e2.symm)
  · intro q hq
    obtain ⟨a, -, b⟩ := convertQuery_spec new q
    obtain ⟨r, hr⟩ := b (fun d hd => ⟨corpus.keys[d]'(hq d hd), (hk _ _).2 (List.getElem?_eq_getElem (hq d hd))⟩)
    obtain ⟨a1, a2⟩ := a r hr
    exact ⟨r, hr, a1, fun x hx => (hk _ _).1 (a2 x hx)⟩
  · rintro q ⟨d, hd, hle⟩
    refine (convertQuery_spec new q).2.1 ⟨d, hd, ?_⟩
    intro k hmem
    rw [hk, List.getElem?_eq_none hle] at hmem
    cases hmem

/-- **C10.** When `index` with positions returns normally, the stored positions are a complete positional index of the
corpus (`Spec.IsPositionIndexOf`): partitions tile the documents that have a non-empty sequence, every stored
position decodes to a (document, offset) where the document has that value, and every occurrence is stored. -/
theorem index_positions {corpus : Corpus} {content : Val → Features} {cfg : IndexCfg} {s : Schedule} {c : Conn DB}
    {db : DB} (hc : Idle c db) (hp : Pending db) (hs : Serves corpus content) (hf : Fair s)
    (hpos : cfg.positions = true) (h : (indexCall corpus cfg s c).2 = .ok ()) :
    ∃ new, Idle (indexCall corpus cfg s c).1 new ∧ IsPositionIndexOf corpus content new := by
  obtain ⟨hi, -, -, new, h1, h2, ⟨h3, -, -, h4, h5, h6⟩, -⟩ := index_success hc hp hs hf h
  have hI := reindexed_isPositionIndex (s := s) hs hi hf hp.toWellformed hpos
    (reindexed_positional hs hi hf hp.toWellformed hpos)
  refine ⟨new, h1, ⟨?_, ?_, ?_, ?_, ?_, ?_, ?_⟩⟩
  · rw [h4]; exact hI.tiles
  · rw [h4]; exact hI.covered
  · rw [h3, h4, h5]; exact hI.decode
  · rw [h3, h4, h5]; exact hI.stored
  · rw [h4]; exact hI.partitions
  · rw [h5]; exact hI.rows
  · rw [h6]; exact hI.positional

example : ((indexCall demoCorpus demoCfg demoSchedule (Conn.fresh demoDb)).1.committed.posDocMap.map
      (fun m => (m.field, m.firstDoc, m.lastDoc, m.docs, m.bounds))) =
    [("text", 0, 1, {0}, {0, 3}), ("text", 2, 2, {2}, {0, 1})] := by decide +kernel

/-! ## Dispatch -/

/-- **C11.** The batches are non-empty, at most `max 1 doc_batch_size` long and cover the keys exactly once, in order;
every batch submitted is awaited; and an error in any batch makes `index` raise and leaves the previous content. -/
theorem index_batches (corpus : Corpus) (cfg : IndexCfg) (s : Schedule) (hf : Fair s) :
    (∀ b ∈ submitted (indexEvents corpus cfg s).1, b ≠ [] ∧ (b.length : Int) ≤ max 1 cfg.size) ∧
    (submitted (indexEvents corpus cfg s).1).flatten = corpus.keys.zipIdx.map (fun x => (x.2, x.1)) ∧
    (awaited (indexEvents corpus cfg s).1 ++ (indexEvents corpus cfg s).2).Perm (submitted (indexEvents corpus cfg s).1) ∧
    (∀ (c : Conn DB) (db : DB) b e, Idle c db → b ∈ submitted (indexEvents corpus cfg s).1 →
      indexDocs corpus cfg.positions b = .error e →
      (∃ e', (indexCall corpus cfg s c).2 = .error e') ∧ (indexCall corpus cfg s c).1.committed = db) := by
  obtain ⟨h1, h2, h3, h4⟩ := indexEvents_spec corpus cfg s hf
  refine ⟨h3, h1, h4, ?_⟩
  intro c db b e hc hb he
  have hend := indexCall_end corpus cfg s c db hc
  generalize indexCall corpus cfg s c = res at hend ⊢
  have hno : ∀ w, pureSteps corpus cfg.positions (indexPhase1 corpus cfg s) db ≠ .ok w := by
    intro w hw
    obtain ⟨o, ho⟩ := phase1_workers hf hw b hb
    rw [he] at ho; cases ho
  cases hend with
  | old c' e' h1 _ _ _ => exact ⟨⟨e', rfl⟩, h1⟩
  | mid c' e' w h1 _ _ _ _ => exact absurd h1 (hno w)
  | new c' w f h1 _ _ _ => exact absurd h1 (hno w)

example : submitted (indexEvents demoCorpus demoCfg demoSchedule).1 = [[(0, .int 0), (1, .int 1)], [(2, .int 2)]] := by
  decide +kernel

/-! ## Failure -/

/-- **C12, the part that holds.**  Whatever strikes wherever: when `index` raises, either the content is exactly what it
was before — and after an exception, other than `KeyboardInterrupt`, the connection is idle on it — or the failure
struck after the first commit, and the content is the complete new index, with the model preserved.  The full claim,
that the content is always what it was before, is false: see `index_late_failure`. -/
theorem index_failure_partial {corpus : Corpus} {content : Val → Features} {cfg : IndexCfg} {s : Schedule} {c : Conn DB}
    {db : DB} (hc : Idle c db) (hp : Pending db) (hs : Serves corpus content) (hf : Fair s)
    (e : Err) (h : (indexCall corpus cfg s c).2 = .error e) :
    ((indexCall corpus cfg s c).1.committed = db ∧ (e.isException = true → Idle (indexCall corpus cfg s c).1 db)) ∨
    ((∃ i, (indexPhase1 corpus cfg s).length < i ∧ s.fault i ≠ none) ∧
      IsIndexOf corpus content (indexCall corpus cfg s c).1.committed ∧
      Reindexed db (indexCall corpus cfg s c).1.committed) := by
  have hw := hp.toWellformed
  have hend := indexCall_end corpus cfg s c db hc
  generalize indexCall corpus cfg s c = res at h hend ⊢
  cases hend with
  | old c' e' h1 _ h3 _ =>
    simp only [Except.error.injEq] at h; subst h
    exact Or.inl ⟨h1, h3⟩
  | mid c' e' w h1 h2 _ h4 h5 =>
    obtain ⟨hi, -, -, rfl⟩ := phase1_ok hs hf hp h1
    refine Or.inr ⟨?_, ?_, ?_⟩
    · by_contra hno
      push Not at hno
      obtain ⟨db', e1, -⟩ := updateChanged_spec (reindexed_pending (s := s) hs hi hf hw) rfl
      have := h5 hno
      rw [e1] at this
      cases this
    · simp only [h2]; exact reindexed_isIndex hs hi hf hw
    · simp only [h2]; exact reindexed_preserves hw
  | new c' w f _ _ _ _ => cases h

/-- **C12 for a corpus that fails.**  Whatever the corpus is — it may break its contract — when no exception strikes
from outside and some document makes a worker fail, `index` raises and the connection is idle on the old content. -/
theorem index_corpus_failure (corpus : Corpus) (cfg : IndexCfg) (s : Schedule) (hf : Fair s) (c : Conn DB) (db : DB)
    (hc : Idle c db) (hno : ∀ i, s.fault i = none) (b : List (Nat × Val)) (e : Err)
    (hb : b ∈ submitted (indexEvents corpus cfg s).1) (he : indexDocs corpus cfg.positions b = .error e) :
    ∃ e', (indexCall corpus cfg s c).2 = .error e' ∧ (e'.isException = true → Idle (indexCall corpus cfg s c).1 db) := by
  have hend := indexCall_end corpus cfg s c db hc
  generalize indexCall corpus cfg s c = res at hend ⊢
  have hno' : ∀ w, pureSteps corpus cfg.positions (indexPhase1 corpus cfg s) db ≠ .ok w := by
    intro w hw
    obtain ⟨o, ho⟩ := phase1_workers hf hw b hb
    rw [he] at ho; cases ho
  cases hend with
  | old c' e' h1 _ h3 _ => exact ⟨e', rfl, h3⟩
  | mid c' e' w h1 _ _ _ _ => exact absurd h1 (hno' w)
  | new c' w f h1 _ _ _ => exact absurd h1 (hno' w)

/-- A corpus with a `None` inside a sequence, indexed with positions. -/
example : indexDocs { keys := [.int 0], docs := fun ks => .ok (ks.map (fun _ => [("text", .seq [some (.int 1), none])])) } true
    [(0, .int 0)] matches .error .valueError := by decide +kernel

/-- **C12 is false in general.**  When the worker pool fails during the housekeeping of the second transaction, `index`
raises although the new index has been committed: the content is a complete index of the new corpus. -/
theorem index_late_failure {corpus : Corpus} {content : Val → Features} {cfg : IndexCfg} {s : Schedule} {c : Conn DB}
    {db : DB} (hc : Idle c db) (hp : Settled db) (hs : Serves corpus content) (hi : Indexable corpus content cfg.positions)
    (hf : Fair s) (hne : corpus.keys ≠ []) (e : Err) (hx : e.isException = true)
    (hfault : ∀ i, s.fault i = if i = (indexPhase1 corpus cfg s).length + 2 then some e else none) :
    (indexCall corpus cfg s c).2 = .error e ∧ IsIndexOf corpus content (indexCall corpus cfg s c).1.committed := by
  have h1 := phase1_result hs hi hf hne hp.toWellformed hp.nothingPending
  obtain ⟨a, b⟩ := indexCall_housekeeping_fails corpus cfg s c db _ e hc h1 hx hfault
  refine ⟨a, ?_⟩
  rw [b.committed]
  exact reindexed_isIndex hs hi hf hp.toWellformed

/-- Such a schedule exists, and the result is not the old content. -/
example :
    let s : Schedule := { demoSchedule with fault := fun i => if i = (indexPhase1 demoCorpus demoCfg demoSchedule).length + 2 then some .worker else none }
    (indexCall demoCorpus demoCfg s (Conn.fresh demoDb)).2 = .error .worker ∧
    (indexCall demoCorpus demoCfg s (Conn.fresh demoDb)).1.committed ≠ demoDb := by
  decide +kernel

/-- Inside an open transaction `index` raises `IndexingError` and changes nothing. -/
theorem index_nested (corpus : Corpus) (cfg : IndexCfg) (s : Schedule) (c : Conn DB) (h : c.inTxn = true) :
    indexCall corpus cfg s c = (c, .error .indexing) := by
  simp [indexCall, Conn.begin, h]

/-- **C12, interrupts.**  If `index` ends before its first commit by something that is not an `Exception`
(`KeyboardInterrupt`), its transaction stays open: whatever methods are called on the object afterwards, failing or not,
nothing they write is ever committed — when the connection is closed the content is what it was before the call — and
every further call of `index` raises `IndexingError`. -/
theorem index_interrupt {V : Type} {corpus : Corpus} {content : Val → Features} {cfg : IndexCfg} {s : Schedule} {c : Conn DB}
    {db : DB} (hc : Idle c db) (hp : Pending db) (hs : Serves corpus content) (hf : Fair s)
    (hearly : ∀ i, (indexPhase1 corpus cfg s).length < i → s.fault i = none)
    (e : Err) (he : e.isException = false) (h : (indexCall corpus cfg s c).2 = .error e)
    (hk : Housekeeping DB) (calls : List (Call DB V)) :
    (runCalls hk calls (indexCall corpus cfg s c).1).close = db ∧
    ∀ corpus' cfg' s', (indexCall corpus' cfg' s' (runCalls hk calls (indexCall corpus cfg s c).1)).2 = .error .indexing := by
  have hend := indexCall_end corpus cfg s c db hc
  have hfail := index_failure_partial hc hp hs hf e h
  have hcm : (indexCall corpus cfg s c).1.committed = db := by
    rcases hfail with ⟨h, -⟩ | ⟨⟨i, h1, h2⟩, -⟩
    · exact h
    · exact absurd (hearly i h1) h2
  generalize indexCall corpus cfg s c = res at h hend hcm ⊢
  have hb : res.1.begun = true ∧ res.1.level = 0 := by
    cases hend with
    | old c' e' _ _ _ _ hb =>
      simp only [Except.error.injEq] at h; subst h
      exact hb he
    | mid c' e' w h1 h2 _ h4 h5 =>
      simp only [Except.error.injEq] at h; subst h
      obtain ⟨hi, -, -, rfl⟩ := phase1_ok hs hf hp h1
      obtain ⟨db', e1, -⟩ := updateChanged_spec (reindexed_pending (s := s) hs hi hf hp.toWellformed) rfl
      have := h5 hearly
      rw [e1] at this
      cases this
    | new c' w f _ _ _ _ => cases h
  obtain ⟨r1, -, r2, -⟩ := begun_commits_nothing hk calls db res.1.seen res.1 ⟨hb.1, hb.2, hcm, 0, by simp⟩
  refine ⟨r2, fun corpus' cfg' s' => ?_⟩
  rw [index_nested _ _ _ _ (by simp [Conn.inTxn, r1])]

/-- An interrupt after the document keys were cleared: the connection is left inside a transaction in which it sees an index
without documents. -/
example :
    let s : Schedule := { demoSchedule with fault := fun i => if i = 1 then some .interrupt else none }
    let r := indexCall demoCorpus demoCfg s (Conn.fresh demoDb)
    r.2 = .error .interrupt ∧ r.1.committed = demoDb ∧ r.1.work.docKeys = [] ∧ r.1.begun = true ∧
    ∀ i, (indexPhase1 demoCorpus demoCfg s).length < i → s.fault i = none := by
  refine ⟨by decide +kernel, by decide +kernel, by decide +kernel, by decide +kernel, fun i hi => ?_⟩
  show (if i = 1 then some Err.interrupt else none) = none
  rw [if_neg]
  rintro rfl
  simp [indexPhase1] at hi

/-- An empty corpus cannot be indexed: without faults `index` raises and the previous index stays. -/
theorem index_empty (corpus : Corpus) (cfg : IndexCfg) (s : Schedule) (c : Conn DB) (db : DB) (hc : Idle c db)
    (he : corpus.keys = []) : (∃ e, (indexCall corpus cfg s c).2 = .error e) ∧
    (indexCall corpus cfg s c).1.committed = db := by
  have hend := indexCall_end corpus cfg s c db hc
  generalize indexCall corpus cfg s c = res at hend ⊢
  have hno : ∀ w, pureSteps corpus cfg.positions (indexPhase1 corpus cfg s) db ≠ .ok w :=
    fun w hw => phase1_nonempty hw he
  cases hend with
  | old c' e' h1 _ _ _ => exact ⟨⟨e', rfl⟩, h1⟩
  | mid c' e' w h1 _ _ _ _ => exact absurd h1 (hno w)
  | new c' w f h1 _ _ _ => exact absurd h1 (hno w)

/-! ## Crashes and readers -/

/-- **C13.** Whatever strikes: everything other connections can see during the call, and so whatever a crash leaves, is
the old content or a complete index of the new corpus that preserves features and model; in it every cluster summary
that is not marked as pending is exact, and all clusters are marked or the database is settled. -/
theorem index_readers {corpus : Corpus} {content : Val → Features} {cfg : IndexCfg} {s : Schedule} {c : Conn DB} {db : DB}
    (hc : Idle c db) (hp : Pending db) (hs : Serves corpus content) (hf : Fair s) :
    ∀ x, x ∈ (indexCall corpus cfg s c).1.seen ∨ x = (indexCall corpus cfg s c).1.committed →
      x ∈ c.seen ∨ x = db ∨
      (IsIndexOf corpus content x ∧ (cfg.positions = true → IsPositionIndexOf corpus content x) ∧ Reindexed db x ∧
        Pending x ∧ (Settled x ∨ ∀ k ∈ x.clusters, k.cid ∈ x.changed)) := by
  have hw := hp.toWellformed
  have mid : ∀ w, pureSteps corpus cfg.positions (indexPhase1 corpus cfg s) db = .ok w →
      Indexable corpus content cfg.positions ∧ w = reindexed corpus cfg s db ∧
      (IsIndexOf corpus content w ∧ (cfg.positions = true → IsPositionIndexOf corpus content w) ∧ Reindexed db w ∧
        Pending w ∧ (Settled w ∨ ∀ k ∈ w.clusters, k.cid ∈ w.changed)) := by
    intro w h
    obtain ⟨hi, -, -, rfl⟩ := phase1_ok hs hf hp h
    refine ⟨hi, rfl, reindexed_isIndex hs hi hf hw,
      fun hpos => reindexed_isPositionIndex hs hi hf hw hpos (reindexed_positional hs hi hf hw hpos), reindexed_preserves hw,
      reindexed_pending hs hi hf hw, Or.inr ?_⟩
    intro k hk
    rw [reindexed_clusters hw] at hk
    exact List.mem_map.2 ⟨k, hk, rfl⟩
  have hend := indexCall_end corpus cfg s c db hc
  generalize indexCall corpus cfg s c = res at hend ⊢
  cases hend with
  | old c' e h1 h2 _ _ =>
    rintro x (hx | hx)
    · rcases h2 x hx with h | h
      · exact Or.inl h
      · exact Or.inr (Or.inl h)
    · exact Or.inr (Or.inl (hx.trans h1))
  | mid c' e w h1 h2 h3 _ _ =>
    obtain ⟨-, -, hM⟩ := mid w h1
    rintro x (hx | hx)
    · rcases h3 x hx with h | h | rfl
      · exact Or.inl h
      · exact Or.inr (Or.inl h)
      · exact Or.inr (Or.inr hM)
    · have hx : x = c'.committed := hx
      rw [hx, h2]; exact Or.inr (Or.inr hM)
  | new c' w f h1 h2 h3 h4 =>
    obtain ⟨hi, rfl, hM⟩ := mid w h1
    have hF : IsIndexOf corpus content f ∧ (cfg.positions = true → IsPositionIndexOf corpus content f) ∧ Reindexed db f ∧
        Pending f ∧ (Settled f ∨ ∀ k ∈ f.clusters, k.cid ∈ f.changed) := by
      obtain ⟨db', e1, e2, e3, e4, ⟨e5, e6, e7, e8⟩, -⟩ := updateChanged_spec hM.2.2.2.1 rfl
      rw [h2] at e1
      simp only [Prod.mk.injEq, and_true] at e1
      subst e1
      obtain ⟨a1, a2, a3, -, -⟩ := hM
      refine ⟨⟨?_, ?_, ?_, ?_⟩, ?_, ⟨?_, ?_, ?_⟩, Settled.toPending e2, Or.inl e2⟩
      · rw [e5]; exact a1.docKeys
      · rw [e5]; exact a1.docIds
      · intro f' v d; rw [← a1.lookup f' v d]; simp only [docsOfKey, e3]
      · rw [e3]; intro r hr d; rw [← a1.featureLookup r hr d]; simp only [docsOf, feature?, e3]
      · intro hpos
        have b := a2 hpos
        refine ⟨?_, ?_, ?_, ?_, ?_, ?_, ?_⟩
        · rw [e6]; exact b.tiles
        · rw [e6]; exact b.covered
        · rw [e3, e6, e7]; exact b.decode
        · rw [e3, e6, e7]; exact b.stored
        · rw [e6]; exact b.partitions
        · rw [e7]; exact b.rows
        · rw [e8]; exact b.positional
      · rw [e3]; exact a3.kept
      · rw [e3]; exact a3.fresh
      · rw [e4]; exact a3.model
    rintro x (hx | hx)
    · rcases h4 x hx with h | h | rfl | rfl
      · exact Or.inl h
      · exact Or.inr (Or.inl h)
      · exact Or.inr (Or.inr hM)
      · exact Or.inr (Or.inr hF)
    · have hx : x = c'.committed := hx
      rw [hx, h3.committed]; exact Or.inr (Or.inr hF)

/-- **C13, repair.**  From a content with pending clusters, any call that edits the model and succeeds leaves a settled
database with the same features; a call that fails changes nothing. -/
theorem pending_repaired (op : ModelOp) (hv : op.Valid) (c : Conn DB) (db : DB) (hc : Idle c db) (hp : Pending db) :
    (∃ v, (op.exec none c).2 = .ok v ∧ Settled (op.exec none c).1.committed ∧
      (op.exec none c).1.committed.features = db.features) ∨
    (∃ e, (op.exec none c).2 = .error e ∧ (op.exec none c).1.committed = db) := by
  rcases method_cases op hv hp with ⟨d, v, he, hP, hf, ht⟩ | ⟨d, e, he, ht, hx⟩
  · obtain ⟨n, seen', rfl, h⟩ := callMethod_top (updateChanged none) op.method.1 op.method.2.1 op.method.2.2 c db hc _ _ he
    simp only [endHk, endChanged, ht, if_true, endContent] at h
    obtain ⟨db', h1, h2, h3, -⟩ := updateChanged_spec hP (show db.features = d.features from hf.symm)
    rw [h1] at h
    simp only at h
    refine Or.inl ⟨v, ?_⟩
    simp only [ModelOp.exec]
    rw [h]
    exact ⟨rfl, h2, h3.trans hf⟩
  · obtain ⟨n, seen', rfl, h⟩ := callMethod_top (updateChanged none) op.method.1 op.method.2.1 op.method.2.2 c db hc _ _ he
    have hcont : endContent (V := Ret) db d (.error e) = db := by
      simp only [endContent]
      rcases hx with hx | rfl
      · simp [hx]
      · simp
    simp only [endHk, endChanged, ht, Bool.false_eq_true, if_false, hcont] at h
    refine Or.inr ⟨e, ?_⟩
    simp only [ModelOp.exec]
    rw [h]
    exact ⟨rfl, rfl⟩

/-! ## Retrying -/

/-- **C14, the part that holds.**  After a crash or a failure of `index` at any point on a settled database, a new
connection that calls `index` again without faults succeeds with a complete index, provided the crash left no
cluster pending: the crash came before the first commit, or there is no model, or the second commit was reached. -/
theorem index_retry_partial {corpus : Corpus} {content : Val → Features} {cfg : IndexCfg} {s s' : Schedule} {c : Conn DB}
    {db : DB} (hc : Idle c db) (hp : Settled db) (hs : Serves corpus content) (hi : Indexable corpus content cfg.positions)
    (hf : Fair s) (hf' : Fair s') (hne : corpus.keys ≠ []) (hno : ∀ i, s'.fault i = none)
    (hseen : c.seen = []) (x : DB) (hx : x ∈ (indexCall corpus cfg s c).1.seen) (hmark : x.changed = []) :
    (indexCall corpus cfg s' (Conn.fresh x)).2 = .ok () ∧
    IsIndexOf corpus content (indexCall corpus cfg s' (Conn.fresh x)).1.committed ∧
    Reindexed x (indexCall corpus cfg s' (Conn.fresh x)).1.committed ∧
    Settled (indexCall corpus cfg s' (Conn.fresh x)).1.committed := by
  have hP : Pending x := by
    rcases index_readers hc (Settled.toPending hp) hs hf x (Or.inl hx) with h | rfl | h
    · rw [hseen] at h; simp at h
    · exact Settled.toPending hp
    · exact h.2.2.2.1
  have hS : Settled x := { hP.toWellformed with
    summaries := fun k hk => hP.summaries k hk (by rw [hmark]; simp)
    nothingPending := hmark }
  have hi' : Idle (Conn.fresh x) x := ⟨rfl, rfl, rfl, rfl, rfl, rfl⟩
  have hok := index_succeeds (c := Conn.fresh x) hi' hS hs hi hf' hne hno
  obtain ⟨new, h1, h2, -⟩ := index_keeps_features hi' hP hs hf' hok
  obtain ⟨new', k1, k2, -⟩ := index_lookup hi' hP hs hf' hok
  obtain ⟨-, -, -, new'', j1, j2, -⟩ := index_success hi' hP hs hf' hok
  obtain ⟨new3, m1, m2, -⟩ := index_keys hi' hP hs hf' hok
  have e1 := h1.committed
  have e2 := k1.committed
  have e3 := j1.committed
  have e4 := m1.committed
  refine ⟨hok, ?_, e1 ▸ h2, e3 ▸ j2⟩
  have hlook := k2
  refine ⟨e4 ▸ m2, ?_, e2 ▸ k2, ?_⟩
  · obtain ⟨hi2, -, -, n4, q1, q2, ⟨-, -, q3, -⟩, -⟩ := index_success hi' hP hs hf' hok
    rw [q1.committed, q3]
    exact (reindexed_isIndex (s := s') hs hi2 hf' hP.toWellformed).docIds
  · obtain ⟨n5, p1, -, p3, -⟩ := index_lookup hi' hP hs hf' hok
    rw [p1.committed]; exact p3

/-- **C14 is false in general.**  When some cluster is pending — as it is after a crash between the two commits of
`index` on an index with a model — calling `index` again raises `IntegrityError`, every time, and changes nothing. -/
theorem index_retry_blocked {corpus : Corpus} {content : Val → Features} {cfg : IndexCfg} {s : Schedule} {c : Conn DB}
    {db : DB} (hc : Idle c db) (hp : Pending db) (hs : Serves corpus content) (hi : Indexable corpus content cfg.positions)
    (hf : Fair s) (hne : corpus.keys ≠ []) (hno : ∀ i, s.fault i = none) (hmark : db.changed ≠ []) :
    (indexCall corpus cfg s c).2 = .error .integrity ∧ Idle (indexCall corpus cfg s c).1 db := by
  obtain ⟨d, h1, h2, h3, -⟩ := phase1_marks (s := s) hs hi hf hne hp.toWellformed
  have herr : pureSteps corpus cfg.positions (indexPhase1 corpus cfg s) db = .error .integrity := by
    rw [h3, markAllChanged, h1, h2, if_pos]
    obtain ⟨x, l, e⟩ := List.exists_cons_of_ne_nil hmark
    obtain ⟨k, hk, rfl⟩ := hp.pendingKnown x (by rw [e]; simp)
    exact List.any_eq_true.2 ⟨k, hk, by rw [e]; simp⟩
  have hend := indexCall_end corpus cfg s c db hc
  generalize indexCall corpus cfg s c = res at hend ⊢
  cases hend with
  | old c' e' _ _ h3' h4 =>
    have := h4 hno
    rw [herr] at this
    simp only [Except.error.injEq] at this
    subst this
    exact ⟨rfl, h3' rfl⟩
  | mid c' e' w h1 _ _ _ _ => rw [herr] at h1; cases h1
  | new c' w f h1 _ _ _ => rw [herr] at h1; cases h1

/-- Such a state is reachable: a crash right after the first commit, on an index with a model. -/
example : ∃ x ∈ (indexCall demoCorpus demoCfg demoSchedule (Conn.fresh demoModel)).1.seen,
    x.changed = [0, 5] ∧
    (indexCall demoCorpus demoCfg demoSchedule (Conn.fresh x)).2 = .error .integrity := by
  decide +kernel

/-! ## The field summary -/

/-- **C47, what the code does.**  When `index` returns normally the field summary has exactly one row for each field with
a value that occurs in some document *or was known to the index before*, and the row describes those values. -/
theorem field_summary_exact {corpus : Corpus} {content : Val → Features} {cfg : IndexCfg} {s : Schedule} {c : Conn DB}
    {db : DB} (hc : Idle c db) (hp : Pending db) (hs : Serves corpus content) (hf : Fair s)
    (h : (indexCall corpus cfg s c).2 = .ok ()) :
    let value := fun f v => (∃ d, Occurs corpus content f v d) ∨ ∃ r ∈ db.features, r.field = f ∧ r.value = v
    ∃ new, Idle (indexCall corpus cfg s c).1 new ∧ (new.fieldSummary.map (·.field)).Nodup ∧
      (∀ f, (∃ row ∈ new.fieldSummary, row.field = f) ↔ ∃ v, value f v) ∧
      ∀ row ∈ new.fieldSummary, DescribesField value corpus content cfg.positions row := by
  intro value
  obtain ⟨hi, -, -, new, h1, h2, ⟨h3, -, -, -, -, h8⟩, -⟩ := index_success hc hp hs hf h
  have hw := hp.toWellformed
  have ht := tempOk corpus content cfg s hs hi hf
  have hM := merged corpus cfg s hw
  obtain ⟨a1, a2, a3⟩ := reindexed_summary (s := s) hs hi hf hw
  have hocc : ∀ f v, (∃ r ∈ (reindexed corpus cfg s db).features, r.field = f ∧ r.value = v) ↔ value f v := by
    intro f v
    constructor
    · rintro ⟨r, hr, rfl, rfl⟩
      rcases hM.row r hr with ⟨k1, -⟩ | ⟨-, k2⟩
      · exact Or.inl ((ht.occurs_iff_key r.field r.value).1 ((mem_tempKeys hf _).1 k1))
      · obtain ⟨r', hr', rfl⟩ := List.mem_map.1 (k2 : r ∈ db.zeroFeatures.features)
        exact Or.inr ⟨r', hr', rfl, rfl⟩
    · rintro (ho | ⟨r, hr, rfl, rfl⟩)
      · obtain ⟨r, hr, e⟩ := hM.present (f, v) ((mem_tempKeys hf _).2 ((ht.occurs_iff_key f v).2 ho))
        simp only [FeatRow.key, Prod.mk.injEq] at e
        exact ⟨r, hr, e.1, e.2⟩
      · obtain ⟨r', hr', -, e2, e3⟩ := (reindexed_preserves (corpus := corpus) (cfg := cfg) (s := s) hw).kept r hr
        exact ⟨r', hr', e2, e3⟩
  refine ⟨new, h1, by rw [h8]; exact a2, ?_, ?_⟩
  · intro f
    rw [h8, a1]
    constructor
    · rintro ⟨r, hr, rfl⟩
      exact ⟨_, (hocc r.field r.value).1 ⟨r, hr, rfl, rfl⟩⟩
    · rintro ⟨v, hv⟩
      obtain ⟨r, hr, e, -⟩ := (hocc f v).2 hv
      exact ⟨r, hr, e⟩
  · rw [h8]
    intro row hrow
    obtain ⟨⟨vs, b1, b2, b3⟩, b4⟩ := a3 row hrow
    exact ⟨⟨vs, b1, fun v => (b2 v).trans (hocc row.field v), b3⟩, b4⟩

/-- The order that makes a value least or greatest: numbers by size and before all texts, texts by their first differing
character. -/
theorem value_order :
    (∀ a b : Int, Val.le (.int a) (.int b) = true ↔ a ≤ b) ∧ (∀ a s, Val.le (.int a) (.text s) = true) ∧
    (∀ s a, Val.le (.text s) (.int a) = false) ∧
    ∀ s t : String, Val.le (.text s) (.text t) = true ↔ s = t ∨ s.toList < t.toList := by
  refine ⟨fun a b => by simp [Val.le], fun _ _ => rfl, fun _ _ => rfl, fun s t => ?_⟩
  simp only [Val.le, decide_eq_true_eq]
  rw [show (s.toList < t.toList) ↔ s < t from Iff.rfl]
  constructor
  · intro h
    by_cases e : s = t
    · exact .inl e
    · right
      exact Decidable.byContradiction fun hn => e (String.le_antisymm h hn)
  · rintro (rfl | h)
    · exact String.le_refl _
    · exact fun hn => absurd h (String.lt_asymm hn)

example : Val.le (.text "ab") (.text "b") = true ∧ Val.le (.text "b") (.text "ab") = false ∧
    Val.le (.text "b") (.text "a") = false := by decide +kernel

/-- **C47, exactly when it holds.**  After `index` returns normally, the field summary has exactly one row for each field
with a value in some document, each row describing the field of the corpus, if and only if every feature known before the
call still occurs in the corpus (in particular on a new index). -/
theorem field_summary_partial {corpus : Corpus} {content : Val → Features} {cfg : IndexCfg} {s : Schedule} {c : Conn DB}
    {db : DB} (hc : Idle c db) (hp : Pending db) (hs : Serves corpus content) (hf : Fair s)
    (h : (indexCall corpus cfg s c).2 = .ok ()) :
    ∃ new, Idle (indexCall corpus cfg s c).1 new ∧ (new.fieldSummary.map (·.field)).Nodup ∧
      (((∀ f, (∃ row ∈ new.fieldSummary, row.field = f) ↔ ∃ v d, Occurs corpus content f v d) ∧
        ∀ row ∈ new.fieldSummary, Summarises corpus content cfg.positions row) ↔
      ∀ r ∈ db.features, ∃ d, Occurs corpus content r.field r.value d) := by
  obtain ⟨new, h1, h2, h3, h4⟩ := field_summary_exact hc hp hs hf h
  refine ⟨new, h1, h2, ?_, ?_⟩
  · rintro ⟨k1, k2⟩ r hr
    obtain ⟨row, hrow, e⟩ := (h3 r.field).2 ⟨r.value, Or.inr ⟨r, hr, rfl, rfl⟩⟩
    obtain ⟨⟨vs, b1, b2, b3, -⟩, -⟩ := h4 row hrow
    obtain ⟨⟨ws, c1, c2, c3, -⟩, -⟩ := k2 row hrow
    have hsub : ws ⊆ vs := fun v hv => (b2 v).2 (Or.inl ((c2 v).1 hv))
    have hperm : ws.Perm vs := (List.subperm_of_subset c1 hsub).perm_of_length_le (by omega)
    rw [← e]
    exact (c2 r.value).1 (hperm.mem_iff.2 ((b2 r.value).2 (Or.inr ⟨r, hr, e.symm, rfl⟩)))
  · intro hold
    have hv : ∀ f v, ((∃ d, Occurs corpus content f v d) ∨ ∃ r ∈ db.features, r.field = f ∧ r.value = v) ↔
        ∃ d, Occurs corpus content f v d := by
      intro f v
      refine ⟨?_, Or.inl⟩
      rintro (ho | ⟨r, hr, rfl, rfl⟩)
      · exact ho
      · exact hold r hr
    refine ⟨fun f => (h3 f).trans (exists_congr fun v => hv f v), fun row hrow => ?_⟩
    obtain ⟨⟨vs, b1, b2, b3⟩, b4⟩ := h4 row hrow
    exact ⟨⟨vs, b1, fun v => (b2 v).trans (hv _ _), b3⟩, b4⟩

/-- **C47 is false in general.**  Every field known before the call is still listed afterwards, and each value known
before is still counted, whether or not it occurs in the corpus. -/
theorem field_summary_stale {corpus : Corpus} {content : Val → Features} {cfg : IndexCfg} {s : Schedule} {c : Conn DB}
    {db : DB} (hc : Idle c db) (hp : Pending db) (hs : Serves corpus content) (hf : Fair s)
    (h : (indexCall corpus cfg s c).2 = .ok ()) (r : FeatRow) (hr : r ∈ db.features) :
    ∃ new, Idle (indexCall corpus cfg s c).1 new ∧ ∃ row ∈ new.fieldSummary, row.field = r.field ∧
      ∃ vs : List Val, vs.Nodup ∧ r.value ∈ vs ∧ row.distinct = vs.length := by
  obtain ⟨hi, -, -, new, h1, h2, ⟨h3, -, -, -, -, h8⟩, -⟩ := index_success hc hp hs hf h
  have hw := hp.toWellformed
  obtain ⟨a1, a2, a3⟩ := reindexed_summary (s := s) hs hi hf hw
  obtain ⟨r', hr', -, e2, e3⟩ := (reindexed_preserves (corpus := corpus) (cfg := cfg) (s := s) hw).kept r hr
  obtain ⟨row, hrow, e⟩ := (a1 r.field).2 ⟨r', hr', e2⟩
  obtain ⟨⟨vs, b1, b2, b3, -⟩, -⟩ := a3 row hrow
  exact ⟨new, h1, row, by rw [h8]; exact hrow, e, vs, b1, (b2 _).2 ⟨r', hr', e2.trans e.symm, e3⟩, b3⟩

/-- After the demo index is reindexed with a corpus that has no "user" field, the summary still lists it, and counts two
values of "text" that no document has. -/
example : ((indexCall demoCorpus demoCfg demoSchedule (Conn.fresh demoDb)).1.committed.fieldSummary.map
    (fun r => (r.field, r.distinct))) = [("user", 1), ("text", 4), ("tag", 1)] := by
  decide +kernel

/-- On a new index the hypothesis holds, and the summary is right. -/
example : (∀ r ∈ ({} : DB).features, ∃ d, Occurs demoCorpus demoContent r.field r.value d) ∧
    (indexCall demoCorpus demoCfg demoSchedule (Conn.fresh {})).1.committed.fieldSummary =
      [⟨"text", 2, .int 7, .int 8, 4⟩, ⟨"tag", 1, .int 1, .int 1, 0⟩] := by
  refine ⟨by simp, ?_⟩
  decide +kernel

end Hyperreal.Props
