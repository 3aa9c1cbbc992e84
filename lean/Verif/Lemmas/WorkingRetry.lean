import Verif.Lemmas.WorkingDir

namespace Hyperreal
open Spec DB

/-! ## A second attempt in the directory of a first one -/

theorem runSteps_no_fault (corpus : Corpus) (positions : Bool) (fault : Nat → Option Err) (l : List Step) :
    ∀ (i : Nat) (c c' : Atomic.Conn DB), runSteps corpus positions fault i l c = (c', none) →
      ∀ j, i ≤ j → j < i + l.length → fault j = none := by
  induction l with
  | nil => intro i c c' _ j h1 h2; simp at h2; omega
  | cons st l ih =>
    intro i c c' h j h1 h2
    simp only [runSteps] at h
    cases hx : st.exec corpus positions (fault i) c with
    | mk c2 e =>
      rw [hx] at h
      cases e with
      | some e => simp at h
      | none =>
        dsimp only at h
        by_cases hj : j = i
        · subst hj
          cases hf : fault j with
          | none => rfl
          | some e => rw [hf] at hx; cases st <;> simp [Step.exec, updateChanged] at hx
        · exact ih (i + 1) c2 c' h j (by omega) (by simp at h2; omega)

theorem indexFields_no_starts (xs : List (Nat × String × Values)) : ∀ (st st' : BatchState),
    indexFields false xs st = .ok st' → st'.starts = st.starts := by
  have hadd : ∀ field d vs (st : BatchState), (addDocs field d vs st).starts = st.starts := by
    intro field d vs st
    unfold addDocs
    induction (vs.filterMap id).dedup generalizing st with
    | nil => rfl
    | cons v l ih => rw [List.foldl_cons, ih]
  induction xs with
  | nil => intro st st' h; simp only [indexFields, Except.ok.injEq] at h; rw [h]
  | cons x xs ih =>
    intro st st' h
    simp only [indexFields] at h
    split at h
    · cases h
    · rename_i st2 h2
      rw [ih st2 st' h]
      simp only [indexField, Except.ok.injEq] at h2
      rw [← h2, hadd]

theorem no_positions_no_pos {corpus : Corpus} {b : List (Nat × Val)} {o : BatchOut} (h : indexDocs corpus false b = .ok o) :
    o.pos = [] := by
  unfold indexDocs at h
  split at h
  · cases h
  · split at h
    · cases h
    · split at h
      · cases h
      · rename_i st hst
        simp only [Except.ok.injEq] at h
        rw [← h]
        have := indexFields_no_starts _ _ _ hst
        simp [this]

theorem indexDocsIn_no_pos {t : TempFile} (ht : t.pos = []) (corpus : Corpus) (positions : Bool) (b : List (Nat × Val)) :
    indexDocsIn (some (some t)) corpus positions b = indexDocs corpus positions b := by
  unfold indexDocsIn
  cases indexDocs corpus positions b <;> simp [ht]

theorem awaitErrIn_no_pos {t : TempFile} (ht : t.pos = []) (corpus : Corpus) (positions : Bool) (bs : List (List (Nat × Val))) :
    awaitErrIn (some (some t)) corpus positions bs = awaitErr corpus positions bs := by
  induction bs with
  | nil => rfl
  | cons b bs ih =>
    simp only [awaitErrIn, awaitErr, indexDocsIn_no_pos ht, ih]
    cases indexDocs corpus positions b <;> rfl

theorem filled_no_pos {t : TempFile} (ht : t.pos = []) (corpus : Corpus) (positions : Bool) (bs : List (List (Nat × Val))) :
    filled (some (some t)) corpus positions bs =
      ⟨t.segs ++ bs.flatMap (fun b => (workerOut corpus positions b).segs), bs.flatMap (fun b => (workerOut corpus positions b).pos),
        t.indexed⟩ := by
  have h := filled_new corpus positions bs
  simp only [filled, Option.getD_some, Option.getD_none, List.nil_append, indexDocsIn_new, TempFile.mk.injEq] at h
  simp only [filled, Option.getD_some, indexDocsIn_no_pos ht, h.1, h.2.1, ht, List.nil_append]

theorem pureSteps_same (corpus : Corpus) (positions : Bool) {l l' : List Step}
    (h : List.Forall₂ (StepSame corpus positions) l l') : ∀ db, pureSteps corpus positions l db = pureSteps corpus positions l' db := by
  induction h with
  | nil => intro db; rfl
  | cons hab hl ih =>
    intro db
    cases hab with
    | refl =>
      rename_i a l1 l2
      cases a with
      | sql f =>
        simp only [pureSteps]
        cases f db with
        | error e => rfl
        | ok d => exact ih d
      | await bs =>
        simp only [pureSteps]
        cases awaitErr corpus positions bs with
        | some e => rfl
        | none => exact ih db
      | nop => simp only [pureSteps]; exact ih db
      | begin => simp only [pureSteps]; exact ih db
      | commit => simp only [pureSteps]; exact ih db
      | housekeeping => simp only [pureSteps]; exact ih db
    | await bs =>
      simp only [pureSteps]
      cases awaitErr corpus positions bs with
      | some e => rfl
      | none => exact ih db

/-- The rows merged by a second attempt. -/
def retrySegs (t : TempFile) (corpus : Corpus) (cfg : IndexCfg) (s : Schedule) : List SegRow :=
  s.segOrder (t.segs ++ (submitted (indexEvents corpus cfg s).1).flatMap (fun b => (workerOut corpus cfg.positions b).segs))

def retryKeys (t : TempFile) (corpus : Corpus) (cfg : IndexCfg) (s : Schedule) : List (String × Val) :=
  s.groupOrder (((retrySegs t corpus cfg s).map (fun r => (r.field, r.value))).dedup)

def retryMerge (t : TempFile) (corpus : Corpus) (cfg : IndexCfg) (s : Schedule) (db : DB) : DB :=
  { db.zeroFeatures with docKeys := enumKeys corpus.keys, posDocMap := [], posIndex := [] }.mergeSegments
    (retrySegs t corpus cfg s) (retryKeys t corpus cfg s)

theorem retry_phase1 {t : TempFile} (ht : t.pos = []) (hti : t.indexed = false) (htp : ∀ x ∈ t.segs, x.posCount = 0)
    {corpus : Corpus} {content : Val → Features} {cfg : IndexCfg} {s : Schedule} (hs : Serves corpus content)
    (hpos : cfg.positions = false) (hf : Fair s) {db : DB} (hch : db.changed = []) (hcl : db.clusters = [])
    (hrest : (retryMerge t corpus cfg s db) =
      { db.zeroFeatures with docKeys := enumKeys corpus.keys, posDocMap := [], posIndex := [], features := (retryMerge t corpus cfg s db).features }) :
    pureSteps corpus cfg.positions (indexPhase1In (some (some t)) corpus cfg s) db =
      .ok (retryMerge t corpus cfg s db).refreshFcCounts.writeFieldSummary := by
  obtain ⟨h1, h2, h3, h4⟩ := indexEvents_spec corpus cfg s hf
  have hi : Indexable corpus content cfg.positions := by intro h; rw [hpos] at h; cases h
  have hT := tempOk corpus content cfg s hs hi hf
  have hall : ∀ b ∈ submitted (indexEvents corpus cfg s).1, ∃ o, indexDocs corpus cfg.positions b = .ok o := by
    intro b hb
    obtain ⟨-, -, -, -, e, -⟩ := hT.out b hb
    exact ⟨_, e⟩
  have hsegs : ∀ x ∈ retrySegs t corpus cfg s, x.posCount = 0 := by
    intro x hx
    rw [retrySegs, (hf.segs _).mem_iff, List.mem_append, List.mem_flatMap] at hx
    rcases hx with hx | ⟨b, hb, hx⟩
    · exact htp x hx
    · obtain ⟨first, last, -, -, -, g⟩ := hT.out b hb
      obtain ⟨-, -, q3, -, q5⟩ := g.seg x hx
      rw [q3, Finset.card_eq_zero, Finset.eq_empty_iff_forall_notMem]
      intro p hp
      rw [q5 p, hpos, show seqsOf false x.field (triplesOf content b) = [] by simp [seqsOf]] at hp
      obtain ⟨pre, y, post, o, e, -⟩ := hp
      simp at e
  have hfil : (retrySegs t corpus cfg s).filter (fun r => 0 < r.posCount) = [] := by
    rw [List.filter_eq_nil_iff]
    intro x hx
    simp [hsegs x hx]
  have hposrows : (submitted (indexEvents corpus cfg s).1).flatMap (fun b => (workerOut corpus cfg.positions b).pos) = [] := by
    rw [List.flatMap_eq_nil_iff]
    intro b hb
    obtain ⟨o, ho⟩ := hall b hb
    have : workerOut corpus cfg.positions b = o := by simp [workerOut, ho]
    rw [this]
    rw [hpos] at ho
    exact no_positions_no_pos ho
  have hposO : s.posOrder [] = [] := (hf.pos []).eq_nil
  have hsame : List.Forall₂ (StepSame corpus cfg.positions) ((indexEvents corpus cfg s).1.map (Event.stepIn (some (some t)) corpus cfg.positions))
      ((indexEvents corpus cfg s).1.map Event.step) := by
    rw [List.forall₂_map_left_iff, List.forall₂_map_right_iff, List.forall₂_same]
    intro e _
    cases e with
    | insert k => exact .refl _
    | submit b => exact .refl _
    | await bs =>
      have := StepSame.await (corpus := corpus) (positions := cfg.positions) bs
      simp only [Event.stepIn, awaitErrIn_no_pos ht]
      exact this
  have hrefl : ∀ l : List Step, List.Forall₂ (StepSame corpus cfg.positions) l l := by
    intro l; induction l with
    | nil => exact .nil
    | cons a l ih => exact .cons (.refl a) ih
  unfold indexPhase1In
  rw [pureSteps_same corpus cfg.positions (List.rel_append (List.rel_append (hrefl _) hsame) (hrefl _))]
  simp only [List.append_assoc, List.cons_append, List.nil_append, pureSteps]
  rw [pureSteps_events corpus cfg.positions _ _ _
    (fun b hb => hall b (h4.mem_iff.1 (List.mem_append.2 (Or.inl hb))))
    (by simp only [List.nil_append, h2, enumKeys_ids]; exact List.nodup_range)
    (by simp only [List.nil_append, h2, enumKeys_keys]; exact hs.keys)]
  simp only [pureSteps, awaitErrIn_no_pos ht, awaitErr_none (fun b hb => hall b (h4.mem_iff.1 (List.mem_append.2 (Or.inr hb)))),
    filled_no_pos ht, hti, Option.getD_some, Option.isNone_some, Bool.false_eq_true, and_false,
    if_false, List.nil_append, h2]
  have hfil' : (s.segOrder (t.segs ++ (submitted (indexEvents corpus cfg s).1).flatMap (fun b => (workerOut corpus cfg.positions b).segs))).filter
      (fun r => decide (0 < r.posCount)) = [] := hfil
  rw [hfil', hposrows, hposO]
  simp only [forRows]
  have e1 : (({ ({ db with docKeys := enumKeys corpus.keys } : DB).zeroFeatures with posDocMap := [], posIndex := [] } : DB).mergeSegments (retrySegs t corpus cfg s) (retryKeys t corpus cfg s)) = retryMerge t corpus cfg s db := rfl
  unfold retryKeys retrySegs at e1
  simp only at e1
  rw [e1]
  rw [insertFieldSummary_empty _ rfl]
  dsimp only
  have hc2 : (retryMerge t corpus cfg s db).clusters = [] := by rw [hrest]; exact hcl
  have hc3 : (retryMerge t corpus cfg s db).changed = [] := by rw [hrest]; exact hch
  generalize retryMerge t corpus cfg s db = d at hc2 hc3
  have e2 : ({ d.refreshFcCounts with fieldSummary := [] } : DB).writeFieldSummary = d.refreshFcCounts.writeFieldSummary := rfl
  have e3 : (d.refreshFcCounts.writeFieldSummary).clusters = [] := hc2
  have e4 : (d.refreshFcCounts.writeFieldSummary).changed = [] := hc3
  have e5 : (d.refreshFcCounts.writeFieldSummary).markAllChanged = .ok d.refreshFcCounts.writeFieldSummary := by
    generalize d.refreshFcCounts.writeFieldSummary = d' at e3 e4
    obtain ⟨a1, a2, a3, a4, a5, a6, a7, a8⟩ := d'
    simp only at e3 e4
    subst e3 e4
    rfl
  show (match (({ d.refreshFcCounts with fieldSummary := [] } : DB).writeFieldSummary).markAllChanged with
    | Except.ok d => Except.ok d | Except.error e => Except.error e) = _
  rw [e2, e5]

end Hyperreal
