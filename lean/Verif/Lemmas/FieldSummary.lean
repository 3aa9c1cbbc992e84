import Verif.Lemmas.PosIndex
import Mathlib.Data.Finset.Card
import Mathlib.Algebra.BigOperators.Group.Finset.Basic
import Mathlib.Algebra.Order.BigOperators.Group.Finset

namespace Hyperreal
open Spec DB

/-! ## The order on values -/

theorem Val.le_refl (a : Val) : Val.le a a = true := by cases a <;> simp [Val.le]

theorem Val.le_total (a b : Val) : Val.le a b = true ∨ Val.le b a = true := by
  cases a <;> cases b <;> simp [Val.le, Int.le_total, String.le_total]

theorem Val.le_trans {a b c : Val} (h1 : Val.le a b = true) (h2 : Val.le b c = true) : Val.le a c = true := by
  cases a <;> cases b <;> cases c <;> simp_all [Val.le]
  · omega
  · exact String.le_trans h1 h2

theorem minVal_spec (vs : List Val) : ∀ v, (minVal v vs = v ∨ minVal v vs ∈ vs) ∧ Val.le (minVal v vs) v = true ∧
    ∀ x ∈ vs, Val.le (minVal v vs) x = true := by
  induction vs with
  | nil => intro v; simp [minVal, Val.le_refl]
  | cons a vs ih =>
    intro v
    have e : minVal v (a :: vs) = minVal (if Val.le v a then v else a) vs := rfl
    rw [e]
    by_cases h : Val.le v a = true
    · rw [if_pos h]
      obtain ⟨h1, h2, h3⟩ := ih v
      refine ⟨h1.imp_right (fun h => by simp [h]), h2, ?_⟩
      intro x hx
      rcases List.mem_cons.1 hx with rfl | hx
      · exact Val.le_trans h2 h
      · exact h3 x hx
    · rw [if_neg h]
      obtain ⟨h1, h2, h3⟩ := ih a
      have hav := (Val.le_total v a).resolve_left h
      refine ⟨Or.inr (by rcases h1 with h1 | h1 <;> simp [h1]), Val.le_trans h2 hav, ?_⟩
      intro x hx
      rcases List.mem_cons.1 hx with rfl | hx
      · exact h2
      · exact h3 x hx

theorem maxVal_spec (vs : List Val) : ∀ v, (maxVal v vs = v ∨ maxVal v vs ∈ vs) ∧ Val.le v (maxVal v vs) = true ∧
    ∀ x ∈ vs, Val.le x (maxVal v vs) = true := by
  induction vs with
  | nil => intro v; simp [maxVal, Val.le_refl]
  | cons a vs ih =>
    intro v
    have e : maxVal v (a :: vs) = maxVal (if Val.le v a then a else v) vs := rfl
    rw [e]
    by_cases h : Val.le v a = true
    · rw [if_pos h]
      obtain ⟨h1, h2, h3⟩ := ih a
      refine ⟨Or.inr (by rcases h1 with h1 | h1 <;> simp [h1]), Val.le_trans h h2, ?_⟩
      intro x hx
      rcases List.mem_cons.1 hx with rfl | hx
      · exact h2
      · exact h3 x hx
    · rw [if_neg h]
      obtain ⟨h1, h2, h3⟩ := ih v
      have hav := (Val.le_total v a).resolve_left h
      refine ⟨h1.imp_right (fun h => by simp [h]), h2, ?_⟩
      intro x hx
      rcases List.mem_cons.1 hx with rfl | hx
      · exact Val.le_trans hav h2
      · exact h3 x hx

/-! ## Counting positions -/

/-- All tokens of the sequences, one after another. -/
def flat (seqs : List (Nat × List (Option Val))) : List (Option Val) := seqs.flatMap (·.2)

theorem flat_length (seqs : List (Nat × List (Option Val))) : (flat seqs).length = totalLen seqs := by
  simp [flat, totalLen, List.length_flatMap]

theorem occursAt_flat (seqs : List (Nat × List (Option Val))) (v : Val) (p : Nat) :
    OccursAt seqs v p ↔ (flat seqs)[p]? = some (some v) := by
  induction seqs using List.reverseRecOn with
  | nil => simp [OccursAt, flat]
  | append_singleton s x ih =>
    rw [occursAt_snoc, ih]
    have e : flat (s ++ [x]) = flat s ++ x.2 := by simp [flat]
    rw [e]
    constructor
    · rintro (h | ⟨o, h1, rfl⟩)
      · rw [List.getElem?_append_left (List.getElem?_eq_some_iff.1 h).1]; exact h
      · rw [List.getElem?_append_right (by rw [flat_length]; omega), flat_length, Nat.add_sub_cancel_left]; exact h1
    · intro h
      by_cases hp : p < (flat s).length
      · rw [List.getElem?_append_left hp] at h; exact Or.inl h
      · rw [List.getElem?_append_right (by omega)] at h
        exact Or.inr ⟨p - totalLen s, by rw [← flat_length]; exact h, by rw [flat_length] at hp; omega⟩

theorem sum_positions (L : List (Option Val)) (hn : none ∉ L) (l : List (Val × Bitmap)) (hd : (l.map (·.1)).Nodup)
    (hp : ∀ x ∈ l, ∀ p, p ∈ x.2 ↔ L[p]? = some (some x.1)) (hall : ∀ v, some v ∈ L → v ∈ l.map (·.1)) :
    (l.map (fun x => x.2.card)).sum = L.length := by
  classical
  have key : ∀ (l : List (Val × Bitmap)), (l.map (·.1)).Nodup → (∀ x ∈ l, ∀ p, p ∈ x.2 ↔ L[p]? = some (some x.1)) →
      (l.map (fun x => x.2.card)).sum = ((Finset.range L.length).filter (fun p => ∃ x ∈ l, p ∈ x.2)).card := by
    intro l
    induction l with
    | nil => intro _ _; simp
    | cons a l ih =>
      intro hd hp
      simp only [List.map_cons, List.nodup_cons] at hd
      have e : (Finset.range L.length).filter (fun p => ∃ x ∈ a :: l, p ∈ x.2) =
          a.2 ∪ (Finset.range L.length).filter (fun p => ∃ x ∈ l, p ∈ x.2) := by
        ext p
        simp only [Finset.mem_filter, Finset.mem_union, List.mem_cons, exists_eq_or_imp, Finset.mem_range]
        constructor
        · rintro ⟨h1, h2 | h2⟩
          · exact Or.inl h2
          · exact Or.inr ⟨h1, h2⟩
        · rintro (h | ⟨h1, h2⟩)
          · exact ⟨(List.getElem?_eq_some_iff.1 ((hp a (by simp) p).1 h)).1, Or.inl h⟩
          · exact ⟨h1, Or.inr h2⟩
      rw [e, Finset.card_union_of_disjoint ?_, List.map_cons, List.sum_cons, ih hd.2 (fun x hx => hp x (by simp [hx]))]
      rw [Finset.disjoint_left]
      intro p h1 h2
      obtain ⟨-, x, hx, h3⟩ := Finset.mem_filter.1 h2
      have h4 := (hp a (by simp) p).1 h1
      rw [(hp x (by simp [hx]) p).1 h3] at h4
      simp only [Option.some.injEq] at h4
      exact hd.1 (List.mem_map.2 ⟨x, hx, h4⟩)
  rw [key l hd hp]
  rw [Finset.filter_true_of_mem, Finset.card_range]
  intro p hpr
  rw [Finset.mem_range] at hpr
  have hm : L[p] ∈ L := List.getElem_mem hpr
  cases hv : L[p] with
  | none => rw [hv] at hm; exact absurd hm hn
  | some v =>
    rw [hv] at hm
    obtain ⟨x, hx, e⟩ := List.mem_map.1 (hall v hm)
    exact ⟨x, hx, (hp x hx p).2 (by rw [List.getElem?_eq_getElem hpr, hv, e])⟩

theorem sum_filter_pos (l : List SegRow) (q : SegRow → Bool) :
    (((l.filter (fun r => 0 < r.posCount)).filter q).map (·.posCount)).sum = ((l.filter q).map (·.posCount)).sum := by
  induction l with
  | nil => rfl
  | cons a l ih =>
    rw [List.filter_filter] at ih ⊢
    by_cases h : 0 < a.posCount <;> by_cases hq : q a = true
    · rw [List.filter_cons_of_pos (by simp [h, hq]), List.filter_cons_of_pos hq, List.map_cons, List.map_cons,
        List.sum_cons, List.sum_cons, ih]
    · rw [List.filter_cons_of_neg (by simp [hq]), List.filter_cons_of_neg hq, ih]
    · rw [List.filter_cons_of_neg (by simp [h]), List.filter_cons_of_pos hq, List.map_cons, List.sum_cons, ih]
      omega
    · rw [List.filter_cons_of_neg (by simp [hq]), List.filter_cons_of_neg hq, ih]

section
variable {corpus : Corpus} {content : Val → Features} {positions : Bool} {bs : List (List (Nat × Val))}
  {segs : List SegRow} {pos : List PosDocRow}

theorem totalLen_triples (f : String) (b : List (Nat × Val)) :
    totalLen (seqsOf true f (triplesOf content b)) = (b.map (fun x => tokens f (content x.2))).sum := by
  have one : ∀ (d : Nat) (doc : Features),
      totalLen (seqsOf true f (doc.map (fun fv => (d, fv.1, fv.2)))) = tokens f doc := by
    intro d doc
    induction doc with
    | nil => rfl
    | cons fv doc ih =>
      obtain ⟨g, u⟩ := fv
      have ih' : (List.map (fun x => x.2.length) (seqsOf true f (doc.map (fun fv => (d, fv.1, fv.2))))).sum = tokens f doc := ih
      cases u with
      | bag vs =>
        simp only [seqsOf, tokens, totalLen, List.map_cons, List.filterMap_cons, List.sum_cons] at ih' ⊢
        rw [ih']; simp
      | seq vs =>
        simp only [seqsOf, tokens, totalLen, List.map_cons, List.filterMap_cons, List.sum_cons] at ih' ⊢
        by_cases h : g = f ∧ vs ≠ []
        · simp only [h, ne_eq, not_false_eq_true, and_self, if_true, List.map_cons, List.sum_cons]
          rw [ih']
        · simp only [h, if_false]
          rw [ih']
          by_cases hg : g = f
          · have : vs = [] := by
              by_contra hne; exact h ⟨hg, hne⟩
            simp [this]
          · simp [hg]
  induction b with
  | nil => rfl
  | cons x b ih =>
    have e : triplesOf content (x :: b) = (content x.2).map (fun fv => (x.1, fv.1, fv.2)) ++ triplesOf content b := rfl
    have e2 : seqsOf true f (triplesOf content (x :: b)) =
        seqsOf true f ((content x.2).map (fun fv => (x.1, fv.1, fv.2))) ++ seqsOf true f (triplesOf content b) := by
      rw [e]; simp [seqsOf]
    rw [e2]
    have e3 : ∀ s t, totalLen (s ++ t) = totalLen s + totalLen t := by intro s t; simp [totalLen]
    rw [e3, one, ih, List.map_cons, List.sum_cons]

/-- One batch: the stored positions of a field are as many as its tokens. -/
theorem TempOk.batch_count (h : TempOk corpus content positions bs segs pos) (hi : Indexable corpus content positions)
    {b : List (Nat × Val)} (hb : b ∈ bs) (f : String) :
    (((workerOut corpus positions b).segs.filter (fun r => r.field = f)).map (·.posCount)).sum =
      totalLen (seqsOf positions f (triplesOf content b)) := by
  obtain ⟨first, last, -, -, -, g⟩ := h.out b hb
  have e : ((workerOut corpus positions b).segs.filter (fun r => r.field = f)).map (·.posCount) =
      ((((workerOut corpus positions b).segs.filter (fun r => r.field = f)).map (fun r => (r.value, r.positions))).map
        (fun x => x.2.card)) := by
    rw [List.map_map]
    apply List.map_congr_left
    intro r hr
    exact (g.seg r (List.mem_filter.1 hr).1).2.2.1
  rw [e, ← flat_length]
  apply sum_positions
  · intro hn
    cases positions with
    | false => rw [show seqsOf false f (triplesOf content b) = [] by simp [seqsOf]] at hn; simp [Hyperreal.flat] at hn
    | true =>
      obtain ⟨⟨d, vs⟩, h1, h2⟩ := List.mem_flatMap.1 hn
      obtain ⟨k, c1, c2, -⟩ := (mem_batchSeqs b f d vs).1 h1
      exact hi rfl k ((h.good b hb).key c1) f vs c2 h2
  · have hn := List.pairwise_map.1 g.segKeys
    rw [List.map_map]
    apply List.pairwise_map.2
    have hn' := hn.filter (fun r => decide (r.field = f))
    refine List.Pairwise.imp_of_mem ?_ hn'
    intro a c ha hc hne ev
    have ha := (List.mem_filter.1 ha).2
    have hc := (List.mem_filter.1 hc).2
    simp only [decide_eq_true_eq] at ha hc
    simp only [Function.comp] at ev
    exact hne (by rw [ha, hc, ev])
  · intro x hx p
    obtain ⟨r, hr, rfl⟩ := List.mem_map.1 hx
    obtain ⟨hr, hrf⟩ := List.mem_filter.1 hr
    simp only [decide_eq_true_eq] at hrf
    rw [(g.seg r hr).2.2.2.2 p, hrf, occursAt_flat]
  · intro v hv
    cases positions with
    | false => rw [show seqsOf false f (triplesOf content b) = [] by simp [seqsOf]] at hv; simp [Hyperreal.flat] at hv
    | true =>
      obtain ⟨⟨d, vs⟩, h1, h2⟩ := List.mem_flatMap.1 hv
      obtain ⟨k, c1, c2, -⟩ := (mem_batchSeqs b f d vs).1 h1
      obtain ⟨r, hr, e⟩ := List.mem_map.1 ((g.present f v).2 ⟨d, k, _, c1, c2, h2⟩)
      simp only [Prod.mk.injEq] at e
      rw [List.map_map]
      exact List.mem_map.2 ⟨r, List.mem_filter.2 ⟨hr, by simp [e.1]⟩, e.2⟩

theorem TempOk.field_count (h : TempOk corpus content positions bs segs pos) (hi : Indexable corpus content positions)
    (f : String) : ((segs.filter (fun r => r.field = f)).map (·.posCount)).sum =
      if positions then (corpus.keys.map (fun k => tokens f (content k))).sum else 0 := by
  have e1 : ((segs.filter (fun r => r.field = f)).map (·.posCount)).sum =
      (((bs.flatMap (fun b => (workerOut corpus positions b).segs)).filter (fun r => r.field = f)).map (·.posCount)).sum :=
    ((h.segs.filter _).map _).sum_eq
  rw [e1]
  have e2 : ∀ l : List (List (Nat × Val)), (∀ b ∈ l, b ∈ bs) →
      (((l.flatMap (fun b => (workerOut corpus positions b).segs)).filter (fun r => r.field = f)).map (·.posCount)).sum =
      (l.map (fun b => totalLen (seqsOf positions f (triplesOf content b)))).sum := by
    intro l
    induction l with
    | nil => intro _; rfl
    | cons b l ih =>
      intro hl
      rw [List.flatMap_cons, List.filter_append, List.map_append, List.sum_append, ih (fun x hx => hl x (by simp [hx])),
        h.batch_count hi (hl b (by simp)) f, List.map_cons, List.sum_cons]
  rw [e2 bs (fun _ h => h)]
  cases positions with
  | false =>
    simp only [Bool.false_eq_true, if_false]
    have : ∀ b, totalLen (seqsOf false f (triplesOf content b)) = 0 := by intro b; simp [seqsOf, totalLen]
    simp [this]
  | true =>
    simp only [if_true, totalLen_triples]
    have hk : corpus.keys = (bs.flatten).map (·.2) := by rw [h.flat, enumKeys_keys]
    rw [hk, List.map_map]
    clear e1 e2 hk h
    induction bs with
    | nil => rfl
    | cons b bs ih =>
      rw [List.map_cons, List.sum_cons, ih, List.flatten_cons, List.map_append, List.sum_append]
      rfl

end

section
variable {corpus : Corpus} {content : Val → Features} {cfg : IndexCfg} {s : Schedule} {db : DB}

theorem reindexed_positionCount (hs : Serves corpus content) (hi : Indexable corpus content cfg.positions) (hf : Fair s)
    (hw : Wellformed db) (f : String) :
    (((reindexed corpus cfg s db).posIndex.filter (fun p => ((reindexed corpus cfg s db).feature? p.fid).any
      (fun r => r.field = f))).map (·.count)).sum =
      if cfg.positions then (corpus.keys.map (fun k => tokens f (content k))).sum else 0 := by
  have ht := tempOk corpus content cfg s hs hi hf
  have hM := merged corpus cfg s hw
  rw [← ht.field_count hi f, ← sum_filter_pos, reindexed_posIndex, List.filter_map, List.map_map]
  have : ((tempSegs corpus cfg s).filter (fun r => 0 < r.posCount)).filter
      ((fun p : PosRow => ((reindexed corpus cfg s db).feature? p.fid).any (fun r => r.field = f)) ∘
        posRowOf (afterMerge corpus cfg s db)) =
      ((tempSegs corpus cfg s).filter (fun r => 0 < r.posCount)).filter (fun r => r.field = f) := by
    apply List.filter_congr
    intro x hx
    have hx := (List.mem_filter.1 hx).1
    obtain ⟨r, h1, h2⟩ := hM.present (x.field, x.value) ((mem_tempKeys hf _).2 (List.mem_map.2 ⟨x, hx, rfl⟩))
    have h3 := fidOf_eq hM.keys h1
    simp only [FeatRow.key, Prod.mk.injEq] at h2
    rw [h2.1, h2.2] at h3
    have h4 : (reindexed corpus cfg s db).feature? r.fid = some r :=
      feature?_of_mem (reindexed_ids (corpus := corpus) (cfg := cfg) (s := s) hw) h1
    simp [posRowOf, h3, h4, h2.1]
  rw [this]
  rfl

/-- The rows of the field summary, for any previous content. -/
theorem reindexed_summary (hs : Serves corpus content) (hi : Indexable corpus content cfg.positions) (hf : Fair s)
    (hw : Wellformed db) :
    (∀ f, (∃ row ∈ (reindexed corpus cfg s db).fieldSummary, row.field = f) ↔
      ∃ r ∈ (reindexed corpus cfg s db).features, r.field = f) ∧
    ((reindexed corpus cfg s db).fieldSummary.map (·.field)).Nodup ∧
    ∀ row ∈ (reindexed corpus cfg s db).fieldSummary,
      (∃ vs : List Val, vs.Nodup ∧ (∀ v, v ∈ vs ↔ ∃ r ∈ (reindexed corpus cfg s db).features, r.field = row.field ∧ r.value = v) ∧
        row.distinct = vs.length ∧ row.minValue ∈ vs ∧ row.maxValue ∈ vs ∧
        ∀ v ∈ vs, Val.le row.minValue v = true ∧ Val.le v row.maxValue = true) ∧
      row.positionCount = if cfg.positions then (corpus.keys.map (fun k => tokens row.field (content k))).sum else 0 := by
  have hkeys := reindexed_keys (corpus := corpus) (cfg := cfg) (s := s) hw
  have hpc := fun f => reindexed_positionCount (corpus := corpus) (content := content) (cfg := cfg) (s := s) hs hi hf hw f
  have hfs : (reindexed corpus cfg s db).fieldSummary = ((reindexed corpus cfg s db).writeFieldSummary).fieldSummary := rfl
  generalize reindexed corpus cfg s db = d at *
  rw [hfs]
  simp only [writeFieldSummary]
  have hval : ∀ f, ((d.features.filter (fun r => r.field = f)).map (·.value)).Nodup := by
    intro f
    have hn := (List.pairwise_map.1 hkeys).filter (fun r => decide (r.field = f))
    apply List.pairwise_map.2
    refine List.Pairwise.imp_of_mem ?_ hn
    intro a c ha hc hne ev
    have ha := (List.mem_filter.1 ha).2
    have hc := (List.mem_filter.1 hc).2
    simp only [decide_eq_true_eq] at ha hc
    exact hne (by simp only [FeatRow.key]; rw [ha, hc, ev])
  have hmem : ∀ f v, v ∈ (d.features.filter (fun r => r.field = f)).map (·.value) ↔
      ∃ r ∈ d.features, r.field = f ∧ r.value = v := by
    intro f v
    simp only [List.mem_map, List.mem_filter, decide_eq_true_eq, and_assoc]
  refine ⟨?_, ?_, ?_⟩
  · intro f
    constructor
    · rintro ⟨row, hrow, rfl⟩
      obtain ⟨f, hfm, e⟩ := List.mem_filterMap.1 hrow
      split at e
      · cases e
      · simp only [Option.some.injEq] at e
        subst e
        obtain ⟨r, hr, e⟩ := List.mem_map.1 (List.mem_dedup.1 hfm)
        exact ⟨r, hr, e⟩
    · rintro ⟨r, hr, rfl⟩
      have hne : (d.features.filter (fun x => x.field = r.field)).map (·.value) ≠ [] :=
        List.ne_nil_of_mem ((hmem r.field r.value).2 ⟨r, hr, rfl, rfl⟩)
      obtain ⟨v, vs, e⟩ := List.exists_cons_of_ne_nil hne
      refine ⟨⟨r.field, (v :: vs).length, minVal v vs, maxVal v vs,
          ((d.posIndex.filter (fun p => (d.feature? p.fid).any (fun x => x.field = r.field))).map (·.count)).sum⟩,
        List.mem_filterMap.2 ⟨r.field, List.mem_dedup.2 (List.mem_map.2 ⟨r, hr, rfl⟩), ?_⟩, rfl⟩
      rw [e]
  · have gen : ∀ l : List String, l.Nodup → ∀ g : String → Option FieldRow, (∀ f row, g f = some row → row.field = f) →
        ((l.filterMap g).map (·.field)).Nodup := by
      intro l hl g hg
      apply List.pairwise_map.2
      rw [List.pairwise_filterMap]
      refine hl.imp ?_
      intro a b hne x hx y hy
      rw [hg a x hx, hg b y hy]; exact hne
    apply gen _ (List.nodup_dedup _)
    intro f row h
    split at h
    · cases h
    · simp only [Option.some.injEq] at h; rw [← h]
  · intro row hrow
    obtain ⟨f, hfm, e⟩ := List.mem_filterMap.1 hrow
    split at e
    · cases e
    · rename_i v vs heq
      simp only [Option.some.injEq] at e
      subst e
      refine ⟨⟨v :: vs, by rw [← heq]; exact hval f, ?_, rfl, ?_, ?_, ?_⟩, hpc f⟩
      · intro x; rw [← heq]; exact hmem f x
      · rcases (minVal_spec vs v).1 with h | h <;> simp [h]
      · rcases (maxVal_spec vs v).1 with h | h <;> simp [h]
      · intro x hx
        obtain ⟨-, a1, a2⟩ := minVal_spec vs v
        obtain ⟨-, b1, b2⟩ := maxVal_spec vs v
        rcases List.mem_cons.1 hx with rfl | hx
        · exact ⟨a1, b1⟩
        · exact ⟨a2 x hx, b2 x hx⟩

theorem tokens_pos (field : String) (doc : Features) :
    0 < tokens field doc ↔ ∃ vs, (field, Values.seq vs) ∈ doc ∧ vs ≠ [] := by
  induction doc with
  | nil => simp [tokens]
  | cons a doc ih =>
    obtain ⟨g, u⟩ := a
    have e : tokens field ((g, u) :: doc) = (match u with
      | .seq vs => if g = field then vs.length else 0
      | .bag _ => 0) + tokens field doc := rfl
    rw [e]
    constructor
    · intro h
      by_cases h0 : 0 < tokens field doc
      · obtain ⟨vs, h1, h2⟩ := ih.1 h0
        exact ⟨vs, by simp [h1], h2⟩
      · cases u with
        | bag vs => simp at h; omega
        | seq vs =>
          simp only at h
          split at h
          · rename_i hg
            subst hg
            exact ⟨vs, by simp, by rintro rfl; simp at h; omega⟩
          · omega
    · rintro ⟨vs, h1, h2⟩
      rcases List.mem_cons.1 h1 with h1 | h1
      · simp only [Prod.mk.injEq] at h1
        obtain ⟨rfl, rfl⟩ := h1
        have := List.length_pos_iff.2 h2
        simp only [if_true]
        omega
      · have := ih.2 ⟨vs, h1, h2⟩
        omega

theorem sum_pos_iff {α : Type} (l : List α) (f : α → Nat) : 0 < (l.map f).sum ↔ ∃ a ∈ l, 0 < f a := by
  induction l with
  | nil => simp
  | cons a l ih =>
    rw [List.map_cons, List.sum_cons]
    constructor
    · intro h
      by_cases h0 : 0 < f a
      · exact ⟨a, by simp, h0⟩
      · obtain ⟨b, hb, h1⟩ := ih.1 (by omega)
        exact ⟨b, by simp [hb], h1⟩
    · rintro ⟨b, hb, h1⟩
      rcases List.mem_cons.1 hb with rfl | hb
      · omega
      · have := ih.2 ⟨b, hb, h1⟩; omega

/-- The fields with positions are those with a non-empty sequence. -/
theorem reindexed_positional (hs : Serves corpus content) (hi : Indexable corpus content cfg.positions) (hf : Fair s)
    (hw : Wellformed db) (hp : cfg.positions = true) (field : String) :
    (∃ row ∈ (reindexed corpus cfg s db).fieldSummary, row.field = field ∧ 0 < row.positionCount) ↔
      ∃ k ∈ corpus.keys, ∃ vs, (field, Values.seq vs) ∈ content k ∧ vs ≠ [] := by
  obtain ⟨a, -, b⟩ := reindexed_summary (s := s) hs hi hf hw
  have hcount : ∀ row ∈ (reindexed corpus cfg s db).fieldSummary,
      0 < row.positionCount ↔ ∃ k ∈ corpus.keys, ∃ vs, (row.field, Values.seq vs) ∈ content k ∧ vs ≠ [] := by
    intro row hr
    rw [(b row hr).2, hp, if_pos rfl, sum_pos_iff]
    constructor
    · rintro ⟨k, h1, h2⟩; exact ⟨k, h1, (tokens_pos _ _).1 h2⟩
    · rintro ⟨k, h1, h2⟩; exact ⟨k, h1, (tokens_pos _ _).2 h2⟩
  constructor
  · rintro ⟨row, h1, rfl, h2⟩; exact (hcount row h1).1 h2
  · rintro ⟨k, h1, vs, h2, h3⟩
    obtain ⟨x, hx⟩ := List.exists_mem_of_ne_nil vs h3
    cases x with
    | none => exact absurd hx (hi hp k h1 field vs h2)
    | some v =>
      obtain ⟨d, hd⟩ := List.getElem?_of_mem h1
      have hl := ((reindexed_isIndex (s := s) hs hi hf hw).lookup field v d).2 ⟨k, _, hd, h2, hx⟩
      have : ∃ r ∈ (reindexed corpus cfg s db).features, r.field = field := by
        rw [docsOfKey] at hl
        split at hl
        · rename_i r hr
          have := List.find?_some hr
          simp only [decide_eq_true_eq] at this
          exact ⟨r, List.mem_of_find?_eq_some hr, this.1⟩
        · simp at hl
      obtain ⟨row, r1, r2⟩ := (a field).2 this
      exact ⟨row, r1, r2, (hcount row r1).2 ⟨k, h1, vs, by rw [r2]; exact h2, h3⟩⟩

end
end Hyperreal
