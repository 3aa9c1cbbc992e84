import Verif.Lemmas.Merge

namespace Hyperreal
open Spec DB

/-! ## Plain steps as a function on the database -/

/-- A step inside a transaction. -/
def Step.plain : Step → Bool
  | .sql _ => true
  | .await _ => true
  | .nop => true
  | _ => false

/-- The effect of plain steps, without a connection. -/
def pureSteps (corpus : Corpus) (positions : Bool) : List Step → DB → Except Err DB
  | [], db => .ok db
  | .sql f :: l, db =>
    match f db with
    | .ok d => pureSteps corpus positions l d
    | .error e => .error e
  | .await bs :: l, db =>
    match awaitErr corpus positions bs with
    | some e => .error e
    | none => pureSteps corpus positions l db
  | _ :: l, db => pureSteps corpus positions l db

theorem runSteps_plain (corpus : Corpus) (positions : Bool) (fault : Nat → Option Err) (steps : List Step)
    (hp : ∀ st ∈ steps, st.plain = true) : ∀ (i : Nat) (c : Atomic.Conn DB), c.begun = true →
    ∃ n e w, runSteps corpus positions fault i steps c =
        ({ c with work := w, seen := List.replicate n c.committed ++ c.seen }, e) ∧
      (e = none → pureSteps corpus positions steps c.work = .ok w) ∧
      ((∀ j, i ≤ j → j < i + steps.length → fault j = none) → pureSteps corpus positions steps c.work =
        match e with
        | none => .ok w
        | some e => .error e) := by
  induction steps with
  | nil => intro i c _; exact ⟨0, none, c.work, by simp [runSteps], by simp [pureSteps], by simp [pureSteps]⟩
  | cons st steps ih =>
    rintro i ⟨cm, w0, stk, b, lv, ch, sn⟩ hb
    obtain rfl : b = true := hb
    have hps : ∀ st ∈ steps, st.plain = true := fun s hs => hp s (by simp [hs])
    have hst := hp st (by simp)
    cases hf : fault i with
    | some e =>
      refine ⟨0, some e, w0, ?_, by simp, fun h => absurd (h i (le_refl _) (by simp)) (by simp [hf])⟩
      cases st <;> simp_all [Step.plain, runSteps, Step.exec]
    | none =>
      cases st with
      | sql f =>
        cases hfd : f w0 with
        | error e =>
          refine ⟨1, some e, w0, ?_, by simp, fun _ => by simp [pureSteps, hfd]⟩
          simp [runSteps, Step.exec, hf, Atomic.Conn.exec, hfd, Except.map, Atomic.Conn.log]
        | ok d =>
          obtain ⟨n, e, w, h1, h2, h3⟩ := ih hps (i + 1) ⟨cm, d, stk, true, lv, ch, cm :: sn⟩ rfl
          refine ⟨n + 1, e, w, ?_, ?_, ?_⟩
          · simp only [runSteps, Step.exec, hf, Atomic.Conn.exec, hfd, Except.map, Atomic.Conn.log, Atomic.Conn.inTxn,
              Bool.true_or, if_true]
            rw [h1]
            simp [List.replicate_succ']
          · simpa [pureSteps, hfd] using h2
          · intro h; simpa [pureSteps, hfd] using h3 (fun j h1 h2 => h j (by omega) (by simp; omega))
      | await bs =>
        cases ha : awaitErr corpus positions bs with
        | some e =>
          refine ⟨0, some e, w0, ?_, by simp, fun _ => by simp [pureSteps, ha]⟩
          simp [runSteps, Step.exec, hf, ha]
        | none =>
          obtain ⟨n, e, w, h1, h2, h3⟩ := ih hps (i + 1) ⟨cm, w0, stk, true, lv, ch, sn⟩ rfl
          refine ⟨n, e, w, ?_, ?_, ?_⟩
          · simp only [runSteps, Step.exec, hf, ha]; exact h1
          · simpa [pureSteps, ha] using h2
          · intro h; simpa [pureSteps, ha] using h3 (fun j h1 h2 => h j (by omega) (by simp; omega))
      | nop =>
        obtain ⟨n, e, w, h1, h2, h3⟩ := ih hps (i + 1) ⟨cm, w0, stk, true, lv, ch, sn⟩ rfl
        refine ⟨n, e, w, ?_, ?_, ?_⟩
        · simp only [runSteps, Step.exec, hf]; exact h1
        · simpa [pureSteps] using h2
        · intro h; simpa [pureSteps] using h3 (fun j h1 h2 => h j (by omega) (by simp; omega))
      | begin => simp [Step.plain] at hst
      | commit => simp [Step.plain] at hst
      | housekeeping => simp [Step.plain] at hst

theorem phase1_plain (corpus : Corpus) (cfg : IndexCfg) (s : Schedule) :
    ∀ st ∈ indexPhase1 corpus cfg s, st.plain = true := by
  intro st hst
  simp only [indexPhase1, List.mem_append, List.mem_singleton, List.mem_map, List.mem_cons, List.not_mem_nil,
    or_false] at hst
  rcases hst with (rfl | ⟨e, -, rfl⟩) | rfl | rfl | rfl | rfl | rfl | rfl | rfl | rfl | rfl | rfl | rfl | rfl
  all_goals first
    | rfl
    | (cases e <;> rfl)

theorem awaitErr_none {corpus : Corpus} {positions : Bool} {bs : List (List (Nat × Val))}
    (h : ∀ b ∈ bs, ∃ o, indexDocs corpus positions b = .ok o) : awaitErr corpus positions bs = none := by
  induction bs with
  | nil => rfl
  | cons b bs ih =>
    obtain ⟨o, ho⟩ := h b (by simp)
    simp only [awaitErr, ho]
    exact ih (fun x hx => h x (by simp [hx]))

theorem pureSteps_events (corpus : Corpus) (positions : Bool) (rest : List Step) (es : List Event) :
    ∀ (db : DB), (∀ b ∈ awaited es, ∃ o, indexDocs corpus positions b = .ok o) →
    ((db.docKeys ++ inserted es).map (·.1)).Nodup → ((db.docKeys ++ inserted es).map (·.2)).Nodup →
    pureSteps corpus positions (es.map Event.step ++ rest) db =
      pureSteps corpus positions rest { db with docKeys := db.docKeys ++ inserted es } := by
  induction es with
  | nil => intro db _ _ _; simp [inserted]
  | cons e es ih =>
    intro db ha h1 h2
    cases e with
    | insert k =>
      simp only [inserted] at h1 h2
      have hno : db.docKeys.any (fun x => x.1 = k.1 || x.2 = k.2) = false := by
        rw [List.any_eq_false]
        intro x hx
        simp only [Bool.or_eq_true, decide_eq_true_eq, not_or]
        rw [List.map_append, List.map_cons, List.nodup_append] at h1 h2
        exact ⟨h1.2.2 x.1 (List.mem_map.2 ⟨x, hx, rfl⟩) k.1 (by simp),
          h2.2.2 x.2 (List.mem_map.2 ⟨x, hx, rfl⟩) k.2 (by simp)⟩
      simp only [List.map_cons, List.cons_append, Event.step, pureSteps, insertDocKey, hno]
      simp only [Bool.false_eq_true, if_false]
      rw [ih { db with docKeys := db.docKeys ++ [k] } (by simpa [awaited] using ha) (by simpa using h1)
        (by simpa using h2)]
      simp [inserted]
    | submit b =>
      simp only [List.map_cons, List.cons_append, Event.step, pureSteps, inserted] at h1 h2 ⊢
      exact ih db (by simpa [awaited] using ha) h1 h2
    | await bs =>
      simp only [inserted] at h1 h2
      simp only [awaited, List.mem_append] at ha
      simp only [List.map_cons, List.cons_append, Event.step, pureSteps,
        awaitErr_none (fun b hb => ha b (Or.inl hb)), inserted]
      exact ih db (fun b hb => ha b (Or.inr hb)) h1 h2

/-! ## The rows the workers leave -/

/-- Facts about the temporary database of a call. -/
structure TempOk (corpus : Corpus) (content : Val → Features) (positions : Bool) (bs : List (List (Nat × Val)))
    (segs : List SegRow) (pos : List PosDocRow) : Prop where
  flat : bs.flatten = enumKeys corpus.keys
  good : ∀ b ∈ bs, GoodBatch corpus b
  apart : bs.Pairwise (fun b b' => ∀ x ∈ b, ∀ y ∈ b', x.1 < y.1)
  out : ∀ b ∈ bs, ∃ first last, (b.map (·.1)).head? = some first ∧ (b.map (·.1)).getLast? = some last ∧
    indexDocs corpus positions b = .ok (workerOut corpus positions b) ∧
    GoodOut content positions b first last (workerOut corpus positions b)
  segs : segs.Perm (bs.flatMap (fun b => (workerOut corpus positions b).segs))
  pos : pos.Perm (bs.flatMap (fun b => (workerOut corpus positions b).pos))

theorem indexEvents_spec (corpus : Corpus) (cfg : IndexCfg) (s : Schedule) (hs : Fair s) :
    (submitted (indexEvents corpus cfg s).1).flatten = enumKeys corpus.keys ∧
    inserted (indexEvents corpus cfg s).1 = enumKeys corpus.keys ∧
    (∀ b ∈ submitted (indexEvents corpus cfg s).1, b ≠ [] ∧ (b.length : Int) ≤ max 1 cfg.size) ∧
    (awaited (indexEvents corpus cfg s).1 ++ (indexEvents corpus cfg s).2).Perm (submitted (indexEvents corpus cfg s).1) := by
  have := dispatch_spec cfg.size cfg.workers s.pick hs.pick (enumKeys corpus.keys) [] [] (by simp)
  simpa [indexEvents] using this

theorem tempOk (corpus : Corpus) (content : Val → Features) (cfg : IndexCfg) (s : Schedule)
    (hs : Serves corpus content) (hi : Indexable corpus content cfg.positions) (hf : Fair s) :
    TempOk corpus content cfg.positions (submitted (indexEvents corpus cfg s).1) (tempSegs corpus cfg s)
      (tempPos corpus cfg s) := by
  obtain ⟨h1, -, h3, -⟩ := indexEvents_spec corpus cfg s hf
  obtain ⟨g1, g2⟩ := batches_good corpus _ h1 (fun b hb => (h3 b hb).1)
  refine ⟨h1, g1, g2, ?_, hf.segs _, hf.pos _⟩
  intro b hb
  obtain ⟨first, last, o, a1, a2, a3, a4⟩ := indexDocs_good hs hi (g1 b hb)
  have : workerOut corpus cfg.positions b = o := by simp [workerOut, a3]
  exact ⟨first, last, a1, a2, by rw [this]; exact a3, by rw [this]; exact a4⟩

namespace TempOk
variable {corpus : Corpus} {content : Val → Features} {positions : Bool} {bs : List (List (Nat × Val))}
  {segs : List SegRow} {pos : List PosDocRow}

theorem mem_batch (h : TempOk corpus content positions bs segs pos) (d : Nat) (k : Val) :
    corpus.keys[d]? = some k ↔ ∃ b ∈ bs, (d, k) ∈ b := by
  rw [← mem_enumKeys corpus.keys (d, k), ← h.flat, List.mem_flatten]

theorem batch_unique (h : TempOk corpus content positions bs segs pos) {b b' : List (Nat × Val)} (hb : b ∈ bs)
    (hb' : b' ∈ bs) {x y : Nat × Val} (hx : x ∈ b) (hy : y ∈ b') (e : x.1 = y.1) : b = b' := by
  have hp := h.apart
  clear h
  induction bs with
  | nil => simp at hb
  | cons a bs ih =>
    rw [List.pairwise_cons] at hp
    rcases List.mem_cons.1 hb with h1 | h1 <;> rcases List.mem_cons.1 hb' with h2 | h2
    · rw [h1, h2]
    · subst h1; have := hp.1 b' h2 x hx y hy; omega
    · subst h2; have := hp.1 b h1 y hy x hx; omega
    · exact ih h1 h2 hp.2

theorem mem_segs (h : TempOk corpus content positions bs segs pos) (s : SegRow) :
    s ∈ segs ↔ ∃ b ∈ bs, s ∈ (workerOut corpus positions b).segs := by
  rw [h.segs.mem_iff, List.mem_flatMap]

theorem mem_pos (h : TempOk corpus content positions bs segs pos) (m : PosDocRow) :
    m ∈ pos ↔ ∃ b ∈ bs, m ∈ (workerOut corpus positions b).pos := by
  rw [h.pos.mem_iff, List.mem_flatMap]

theorem head_mem {b : List (Nat × Val)} {first : Nat} (hh : (b.map (·.1)).head? = some first) :
    ∃ k, (first, k) ∈ b := by
  have : first ∈ b.map (·.1) := List.mem_of_mem_head? hh
  obtain ⟨x, hx, rfl⟩ := List.mem_map.1 this
  exact ⟨x.2, hx⟩

/-- A document of a segment is a document of its batch. -/
theorem seg_doc (h : TempOk corpus content positions bs segs pos) {b : List (Nat × Val)} (hb : b ∈ bs) {s : SegRow}
    (hs : s ∈ (workerOut corpus positions b).segs) (d : Nat) :
    d ∈ s.docs ↔ ∃ k vs, (d, k) ∈ b ∧ (s.field, vs) ∈ content k ∧ some s.value ∈ vs.items := by
  obtain ⟨first, last, -, -, -, g⟩ := h.out b hb
  exact (g.seg s hs).2.2.2.1 d

/-- Documents recorded for a value over all segments are the ones where it occurs. -/
theorem group_docs (h : TempOk corpus content positions bs segs pos) (f : String) (v : Val) (d : Nat) :
    d ∈ groupDocs segs (f, v) ↔ Occurs corpus content f v d := by
  rw [mem_groupDocs]
  constructor
  · rintro ⟨s, hs, rfl, rfl, hd⟩
    obtain ⟨b, hb, hsb⟩ := (h.mem_segs s).1 hs
    obtain ⟨k, vs, h1, h2, h3⟩ := (h.seg_doc hb hsb d).1 hd
    exact ⟨k, vs, (h.mem_batch d k).2 ⟨b, hb, h1⟩, h2, h3⟩
  · rintro ⟨k, vs, h1, h2, h3⟩
    obtain ⟨b, hb, hdk⟩ := (h.mem_batch d k).1 h1
    obtain ⟨first, last, -, -, -, g⟩ := h.out b hb
    obtain ⟨s, hs, e⟩ := List.mem_map.1 ((g.present f v).2 ⟨d, k, vs, hdk, h2, h3⟩)
    simp only [Prod.mk.injEq] at e
    obtain ⟨rfl, rfl⟩ := e
    exact ⟨s, (h.mem_segs s).2 ⟨b, hb, hs⟩, rfl, rfl, (h.seg_doc hb hs d).2 ⟨k, vs, hdk, h2, h3⟩⟩

theorem occurs_iff_key (h : TempOk corpus content positions bs segs pos) (f : String) (v : Val) :
    (f, v) ∈ segs.map (fun r => (r.field, r.value)) ↔ ∃ d, Occurs corpus content f v d := by
  constructor
  · intro hk
    obtain ⟨s, hs, e⟩ := List.mem_map.1 hk
    simp only [Prod.mk.injEq] at e
    obtain ⟨rfl, rfl⟩ := e
    obtain ⟨b, hb, hsb⟩ := (h.mem_segs s).1 hs
    obtain ⟨first, last, -, -, -, g⟩ := h.out b hb
    obtain ⟨d, k, vs, h1, h2, h3⟩ := (g.present s.field s.value).1 (List.mem_map.2 ⟨s, hsb, rfl⟩)
    exact ⟨d, k, vs, (h.mem_batch d k).2 ⟨b, hb, h1⟩, h2, h3⟩
  · rintro ⟨d, hd⟩
    obtain ⟨s, hs, h1, h2, -⟩ := (mem_groupDocs segs (f, v) d).1 ((h.group_docs f v d).2 hd)
    exact List.mem_map.2 ⟨s, hs, by simp [h1, h2]⟩

theorem segs_disjoint (h : TempOk corpus content positions bs segs pos) :
    segs.Pairwise (fun s s' => s.field = s'.field → s.value = s'.value → Disjoint s.docs s'.docs) := by
  rw [h.segs.pairwise_iff (by intro a b hab e1 e2; exact (hab e1.symm e2.symm).symm), List.pairwise_flatMap]
  constructor
  · intro b hb
    obtain ⟨first, last, -, -, -, g⟩ := h.out b hb
    have := List.pairwise_map.1 g.segKeys
    exact this.imp (fun hne e1 e2 => absurd (by rw [e1, e2]) hne)
  · refine List.Pairwise.imp_of_mem ?_ h.apart
    intro b b' hb hb' hlt s hs s' hs' _ _
    rw [Finset.disjoint_left]
    intro d hd hd'
    obtain ⟨k, -, h1, -⟩ := (h.seg_doc hb hs d).1 hd
    obtain ⟨k', -, h2, -⟩ := (h.seg_doc hb' hs' d).1 hd'
    have := hlt _ h1 _ h2
    simp at this

theorem segs_count (h : TempOk corpus content positions bs segs pos) : ∀ s ∈ segs, s.docsCount = s.docs.card := by
  intro s hs
  obtain ⟨b, hb, hsb⟩ := (h.mem_segs s).1 hs
  obtain ⟨first, last, -, -, -, g⟩ := h.out b hb
  exact (g.seg s hsb).2.1

theorem segs_apart (h : TempOk corpus content positions bs segs pos) :
    segs.Pairwise (fun s s' => ¬ (s.field = s'.field ∧ s.value = s'.value ∧ s.firstDoc = s'.firstDoc)) := by
  rw [h.segs.pairwise_iff (by rintro a b hab ⟨e1, e2, e3⟩; exact hab ⟨e1.symm, e2.symm, e3.symm⟩), List.pairwise_flatMap]
  constructor
  · intro b hb
    obtain ⟨first, last, -, -, -, g⟩ := h.out b hb
    have := List.pairwise_map.1 g.segKeys
    exact this.imp (fun hne ⟨e1, e2, _⟩ => absurd (by rw [e1, e2]) hne)
  · refine List.Pairwise.imp_of_mem ?_ h.apart
    rintro b b' hb hb' hlt s hs s' hs' ⟨-, -, e⟩
    obtain ⟨f1, l1, a1, -, -, g⟩ := h.out b hb
    obtain ⟨f2, l2, a2, -, -, g'⟩ := h.out b' hb'
    rw [(g.seg s hs).1, (g'.seg s' hs').1] at e
    obtain ⟨k1, m1⟩ := head_mem a1
    obtain ⟨k2, m2⟩ := head_mem a2
    have := hlt _ m1 _ m2
    simp only at this
    omega

theorem pos_apart (h : TempOk corpus content positions bs segs pos) :
    pos.Pairwise (fun s s' => ¬ (s.field = s'.field ∧ s.firstDoc = s'.firstDoc)) := by
  rw [h.pos.pairwise_iff (by rintro a b hab ⟨e1, e3⟩; exact hab ⟨e1.symm, e3.symm⟩), List.pairwise_flatMap]
  constructor
  · intro b hb
    obtain ⟨first, last, -, -, -, g⟩ := h.out b hb
    have := List.pairwise_map.1 g.posKeys
    exact this.imp (fun hne ⟨e1, _⟩ => absurd e1 hne)
  · refine List.Pairwise.imp_of_mem ?_ h.apart
    rintro b b' hb hb' hlt s hs s' hs' ⟨-, e⟩
    obtain ⟨f1, l1, a1, -, -, g⟩ := h.out b hb
    obtain ⟨f2, l2, a2, -, -, g'⟩ := h.out b' hb'
    rw [(g.pos s hs).1, (g'.pos s' hs').1] at e
    obtain ⟨k1, m1⟩ := head_mem a1
    obtain ⟨k2, m2⟩ := head_mem a2
    have := hlt _ m1 _ m2
    simp only at this
    omega

end TempOk

/-! ## The result of the first transaction -/

/-- The inverted index after the merge. -/
def afterMerge (corpus : Corpus) (cfg : IndexCfg) (s : Schedule) (db : DB) : DB :=
  { db.zeroFeatures with docKeys := enumKeys corpus.keys, posDocMap := [], posIndex := [] }.mergeSegments
    (tempSegs corpus cfg s) (tempKeys corpus cfg s)

/-- Everything but the field summary and the marks. -/
def afterPositions (corpus : Corpus) (cfg : IndexCfg) (s : Schedule) (db : DB) : DB :=
  { afterMerge corpus cfg s db with posIndex := ((tempSegs corpus cfg s).filter (fun r => 0 < r.posCount)).map (posRowOf (afterMerge corpus cfg s db)), posDocMap := tempPos corpus cfg s }

/-- What the first transaction commits. -/
def reindexed (corpus : Corpus) (cfg : IndexCfg) (s : Schedule) (db : DB) : DB :=
  { (afterPositions corpus cfg s db).refreshFcCounts.writeFieldSummary with changed := db.clusters.map (·.cid) }

theorem zero_ids (db : DB) : db.zeroFeatures.features.map (·.fid) = db.features.map (·.fid) := by
  simp [zeroFeatures, Function.comp_def]

theorem zero_keys (db : DB) : db.zeroFeatures.features.map (·.key) = db.features.map (·.key) := by
  simp [zeroFeatures, Function.comp_def, FeatRow.key]

theorem merged (corpus : Corpus) (cfg : IndexCfg) (s : Schedule) {db : DB} (hw : Wellformed db) :
    Merged (tempSegs corpus cfg s) (tempKeys corpus cfg s)
      { db.zeroFeatures with docKeys := enumKeys corpus.keys, posDocMap := [], posIndex := [] }
      (afterMerge corpus cfg s db) :=
  mergeSegments_spec _ _ (by simpa [zero_ids] using hw.featureIds) (by rw [zero_keys]; exact hw.featureKeys) _

/-- Inserting into the emptied summary. -/
theorem insertFieldSummary_empty (db : DB) (h : db.fieldSummary = []) :
    db.insertFieldSummary = .ok db.writeFieldSummary := by
  have : db.writeFieldSummary.fieldSummary.any (fun r => r.field ∈ db.fieldSummary.map (·.field)) = false := by
    rw [h]; simp
  rw [insertFieldSummary, this, h]
  rfl

/-- The first transaction up to the marking of the clusters, when nothing strikes. -/
theorem phase1_marks {corpus : Corpus} {content : Val → Features} {cfg : IndexCfg} {s : Schedule}
    (hs : Serves corpus content) (hi : Indexable corpus content cfg.positions) (hf : Fair s) (hne : corpus.keys ≠ [])
    {db : DB} (hw : Wellformed db) :
    ∃ d : DB, d.changed = db.changed ∧ d.clusters = db.clusters ∧
      pureSteps corpus cfg.positions (indexPhase1 corpus cfg s) db = d.markAllChanged ∧
      reindexed corpus cfg s db = { d with changed := db.clusters.map (·.cid) } := by
  obtain ⟨h1, h2, h3, h4⟩ := indexEvents_spec corpus cfg s hf
  have ht := tempOk corpus content cfg s hs hi hf
  have hall : ∀ b ∈ submitted (indexEvents corpus cfg s).1, ∃ o, indexDocs corpus cfg.positions b = .ok o := by
    intro b hb
    obtain ⟨-, -, -, -, e, -⟩ := ht.out b hb
    exact ⟨_, e⟩
  have hsub : submitted (indexEvents corpus cfg s).1 ≠ [] := by
    intro e
    rw [e] at h1
    simp only [List.flatten_nil] at h1
    have := congrArg List.length h1
    simp [enumKeys] at this
    exact hne (List.length_eq_zero_iff.1 this.symm)
  simp only [indexPhase1, List.append_assoc, List.cons_append, List.nil_append, pureSteps]
  rw [pureSteps_events corpus cfg.positions _ _ _
    (fun b hb => hall b (h4.mem_iff.1 (List.mem_append.2 (Or.inl hb))))
    (by simp only [List.nil_append, h2, enumKeys_ids]; exact List.nodup_range)
    (by simp only [List.nil_append, h2, enumKeys_keys]; exact hs.keys)]
  simp only [pureSteps, awaitErr_none (fun b hb => hall b (h4.mem_iff.1 (List.mem_append.2 (Or.inr hb)))), hsub,
    if_false, List.nil_append, h2]
  have hM := merged corpus cfg s hw
  have e1 : (({ ({ db with docKeys := enumKeys corpus.keys } : DB).zeroFeatures with posDocMap := [], posIndex := [] } : DB).mergeSegments (tempSegs corpus cfg s) (tempKeys corpus cfg s)) = afterMerge corpus cfg s db := rfl
  simp only at e1
  rw [e1]
  have hpos0 : (afterMerge corpus cfg s db).posIndex = [] := by rw [hM.rest]
  have hpd0 : (afterMerge corpus cfg s db).posDocMap = [] := by rw [hM.rest]
  have hch1 : (afterMerge corpus cfg s db).changed = db.changed := by rw [hM.rest]; rfl
  have hcl1 : (afterMerge corpus cfg s db).clusters = db.clusters := by rw [hM.rest]; rfl
  rw [insertPositions_spec _ _ hM.ids hM.keys ?_ (ht.segs_apart.sublist List.filter_sublist) (by rw [hpos0]; simp)]
  · simp only [hpos0, List.nil_append]
    rw [insertPosDocs_spec _ _ ht.pos_apart (by simp only [hpd0]; simp)]
    simp only [hpd0, List.nil_append]
    refine ⟨(afterPositions corpus cfg s db).refreshFcCounts.writeFieldSummary, hch1, hcl1, ?_, rfl⟩
    rw [insertFieldSummary_empty _ rfl]
    dsimp only
    generalize he : DB.markAllChanged _ = r
    have : r = (afterPositions corpus cfg s db).refreshFcCounts.writeFieldSummary.markAllChanged := he.symm
    rw [this]
    cases (afterPositions corpus cfg s db).refreshFcCounts.writeFieldSummary.markAllChanged <;> rfl
  · intro x hx
    have hxs := (List.mem_filter.1 hx).1
    refine hM.present (x.field, x.value) ?_
    rw [tempKeys, (hf.groups _).mem_iff, List.mem_dedup]
    exact List.mem_map.2 ⟨x, hxs, rfl⟩

/-- The first transaction, when nothing strikes. -/
theorem phase1_result {corpus : Corpus} {content : Val → Features} {cfg : IndexCfg} {s : Schedule}
    (hs : Serves corpus content) (hi : Indexable corpus content cfg.positions) (hf : Fair s) (hne : corpus.keys ≠ [])
    {db : DB} (hw : Wellformed db) (hch : db.changed = []) :
    pureSteps corpus cfg.positions (indexPhase1 corpus cfg s) db = .ok (reindexed corpus cfg s db) := by
  obtain ⟨d, h1, h2, h3, h4⟩ := phase1_marks hs hi hf hne hw
  rw [h3, h4, markAllChanged, h1, h2, hch]
  simp

/-! ## What a success tells -/

theorem pureSteps_await {corpus : Corpus} {positions : Bool} (bs : List (List (Nat × Val))) (steps : List Step) :
    ∀ {db w : DB}, pureSteps corpus positions steps db = .ok w → .await bs ∈ steps →
      awaitErr corpus positions bs = none := by
  induction steps with
  | nil => intro db w _ h; simp at h
  | cons st steps ih =>
    intro db w h hm
    cases st with
    | sql f =>
      simp only [pureSteps] at h
      split at h
      · exact ih h (by simpa using hm)
      · cases h
    | await bs' =>
      simp only [pureSteps] at h
      split at h
      · cases h
      · rename_i hn
        rcases List.mem_cons.1 hm with e | hm
        · cases e; exact hn
        · exact ih h hm
    | nop => exact ih (by simpa [pureSteps] using h) (by simpa using hm)
    | begin => exact ih (by simpa [pureSteps] using h) (by simpa using hm)
    | commit => exact ih (by simpa [pureSteps] using h) (by simpa using hm)
    | housekeeping => exact ih (by simpa [pureSteps] using h) (by simpa using hm)

theorem pureSteps_sql {corpus : Corpus} {positions : Bool} (f : DB → Except Err DB) (steps : List Step) :
    ∀ {db w : DB}, pureSteps corpus positions steps db = .ok w → .sql f ∈ steps → ∃ d d', f d = .ok d' := by
  induction steps with
  | nil => intro db w _ h; simp at h
  | cons st steps ih =>
    intro db w h hm
    cases st with
    | sql g =>
      simp only [pureSteps] at h
      split at h
      · rename_i d hd
        rcases List.mem_cons.1 hm with e | hm
        · cases e; exact ⟨_, _, hd⟩
        · exact ih h hm
      · cases h
    | await bs' =>
      simp only [pureSteps] at h
      split at h
      · cases h
      · exact ih h (by simpa using hm)
    | nop => exact ih (by simpa [pureSteps] using h) (by simpa using hm)
    | begin => exact ih (by simpa [pureSteps] using h) (by simpa using hm)
    | commit => exact ih (by simpa [pureSteps] using h) (by simpa using hm)
    | housekeeping => exact ih (by simpa [pureSteps] using h) (by simpa using hm)

theorem awaitErr_none_iff {corpus : Corpus} {positions : Bool} {bs : List (List (Nat × Val))} :
    awaitErr corpus positions bs = none ↔ ∀ b ∈ bs, ∃ o, indexDocs corpus positions b = .ok o := by
  refine ⟨?_, awaitErr_none⟩
  induction bs with
  | nil => simp
  | cons b bs ih =>
    intro h x hx
    simp only [awaitErr] at h
    split at h
    · cases h
    · rename_i o ho
      rcases List.mem_cons.1 hx with rfl | hx
      · exact ⟨o, ho⟩
      · exact ih h x hx

theorem mem_awaited (es : List Event) (b : List (Nat × Val)) : b ∈ awaited es ↔ ∃ bs, Event.await bs ∈ es ∧ b ∈ bs := by
  induction es with
  | nil => simp [awaited]
  | cons e es ih =>
    cases e <;> simp [awaited, ih]

/-- Every batch was indexed when the first transaction goes through. -/
theorem phase1_workers {corpus : Corpus} {cfg : IndexCfg} {s : Schedule} (hf : Fair s) {db w : DB}
    (h : pureSteps corpus cfg.positions (indexPhase1 corpus cfg s) db = .ok w) :
    ∀ b ∈ submitted (indexEvents corpus cfg s).1, ∃ o, indexDocs corpus cfg.positions b = .ok o := by
  obtain ⟨-, -, -, h4⟩ := indexEvents_spec corpus cfg s hf
  intro b hb
  rcases List.mem_append.1 (h4.mem_iff.2 hb) with hb | hb
  · obtain ⟨bs, h1, h2⟩ := (mem_awaited _ _).1 hb
    refine awaitErr_none_iff.1 (pureSteps_await bs _ h ?_) b h2
    simp only [indexPhase1, List.mem_append, List.mem_map]
    exact Or.inl (Or.inr ⟨_, h1, rfl⟩)
  · refine awaitErr_none_iff.1 (pureSteps_await (indexEvents corpus cfg s).2 _ h ?_) b hb
    simp [indexPhase1]

theorem phase1_nonempty {corpus : Corpus} {cfg : IndexCfg} {s : Schedule} {db w : DB}
    (h : pureSteps corpus cfg.positions (indexPhase1 corpus cfg s) db = .ok w) : corpus.keys ≠ [] := by
  intro e
  obtain ⟨d, d', hd⟩ := pureSteps_sql (fun db => if submitted (indexEvents corpus cfg s).1 = [] then .error .operational
    else .ok db) _ h (by simp [indexPhase1])
  have : submitted (indexEvents corpus cfg s).1 = [] := by
    simp [indexEvents, e, enumKeys, dispatch, submitted]
  simp [this] at hd

theorem indexFields_noNone (positions : Bool) (xs : List (Nat × String × Values)) : ∀ (st st' : BatchState),
    indexFields positions xs st = .ok st' → ∀ x ∈ xs, NoNone positions x.2.2 := by
  induction xs with
  | nil => intro st st' _ x hx; simp at hx
  | cons y xs ih =>
    intro st st' h x hx
    simp only [indexFields] at h
    split at h
    · cases h
    · rename_i st1 h1
      rcases List.mem_cons.1 hx with rfl | hx
      · intro hp vs hv
        subst hp
        rw [hv] at h1
        simp only [indexField] at h1
        split at h1
        · cases h1
        · rename_i st2 h2
          exact (addPositions_spec _ _ _ _ _ h2).1
      · exact ih st1 st' h x hx

theorem phase1_indexable {corpus : Corpus} {content : Val → Features} {cfg : IndexCfg} {s : Schedule}
    (hs : Serves corpus content) (hf : Fair s) {db w : DB}
    (h : pureSteps corpus cfg.positions (indexPhase1 corpus cfg s) db = .ok w) :
    Indexable corpus content cfg.positions := by
  intro hp k hk f vs hfv
  obtain ⟨h1, -, h3, -⟩ := indexEvents_spec corpus cfg s hf
  obtain ⟨d, hd⟩ := List.getElem?_of_mem hk
  have hm : (d, k) ∈ enumKeys corpus.keys := (mem_enumKeys _ _).2 hd
  rw [← h1, List.mem_flatten] at hm
  obtain ⟨b, hb, hdk⟩ := hm
  obtain ⟨g1, -⟩ := batches_good corpus _ h1 (fun b hb => (h3 b hb).1)
  obtain ⟨o, ho⟩ := phase1_workers hf h b hb
  have hdocs := hs.docs (b.map (·.2)) (by
    intro k' hk'
    obtain ⟨x, hx, rfl⟩ := List.mem_map.1 hk'
    exact List.mem_of_getElem? ((g1 b hb).part x hx))
  simp only [indexDocs] at ho
  split at ho
  · cases ho
  · rename_i first rest hfst
    rw [hdocs] at ho
    simp only at ho
    have ht : batchTriples (first :: rest) ((b.map (·.2)).map content) = triplesOf content b := by
      rw [← hfst, batchTriples_eq]
    rw [ht] at ho
    split at ho
    · cases ho
    · rename_i st hst
      exact indexFields_noNone _ _ _ _ hst (d, f, .seq vs) ((mem_triplesOf _ _ _ _ _).2 ⟨k, hdk, hfv⟩) hp vs rfl

/-- The first transaction on a database in order, whatever it is: when it goes through, the result is the new index. -/
theorem phase1_ok {corpus : Corpus} {content : Val → Features} {cfg : IndexCfg} {s : Schedule}
    (hs : Serves corpus content) (hf : Fair s) {db w : DB} (hp : Pending db)
    (h : pureSteps corpus cfg.positions (indexPhase1 corpus cfg s) db = .ok w) :
    Indexable corpus content cfg.positions ∧ corpus.keys ≠ [] ∧ db.changed = [] ∧ w = reindexed corpus cfg s db := by
  have hi := phase1_indexable hs hf h
  have hne := phase1_nonempty h
  obtain ⟨d, h1, h2, h3, h4⟩ := phase1_marks hs hi hf hne hp.toWellformed
  have hch : db.changed = [] := by
    rw [h3, markAllChanged, h1, h2] at h
    split at h
    · cases h
    · rename_i hno
      rw [List.eq_nil_iff_forall_not_mem]
      intro c hc
      obtain ⟨k, hk, rfl⟩ := hp.pendingKnown c hc
      exact hno (List.any_eq_true.2 ⟨k, hk, by simpa using hc⟩)
  refine ⟨hi, hne, hch, ?_⟩
  rw [phase1_result hs hi hf hne hp.toWellformed hch] at h
  exact (Except.ok.inj h).symm

end Hyperreal
