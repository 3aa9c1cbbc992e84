import Verif.Lemmas.Reindexed

namespace Hyperreal
open Spec DB

/-! ## Offsets -/

theorem offsets_length (s : List (Nat × List (Option Val))) : (offsets s).length = s.length + 1 := by
  simp [offsets]

theorem offsets_getElem? (s : List (Nat × List (Option Val))) :
    ∀ i, i ≤ s.length → (offsets s)[i]? = some (totalLen (s.take i)) := by
  induction s using List.reverseRecOn with
  | nil => intro i hi; simp at hi; subst hi; simp [offsets_nil, totalLen]
  | append_singleton s x ih =>
    intro i hi
    rw [offsets_snoc]
    simp only [List.length_append, List.length_cons, List.length_nil] at hi
    by_cases h : i ≤ s.length
    · rw [List.getElem?_append_left (by rw [offsets_length]; omega), ih i h, List.take_append_of_le_length h]
    · have e : i = s.length + 1 := by omega
      subst e
      rw [List.getElem?_append_right (by rw [offsets_length]), offsets_length]
      simp only [Nat.sub_self, List.getElem?_cons_zero]
      rw [List.take_of_length_le (by simp), totalLen_snoc]

theorem offsets_sorted (s : List (Nat × List (Option Val))) (h : ∀ x ∈ s, x.2 ≠ []) :
    (offsets s).Pairwise (· < ·) := by
  induction s using List.reverseRecOn with
  | nil => simp [offsets_nil]
  | append_singleton s x ih =>
    rw [offsets_snoc, List.pairwise_append]
    refine ⟨ih (fun y hy => h y (by simp [hy])), by simp, ?_⟩
    intro a ha b hb
    simp only [List.mem_singleton] at hb
    have := offsets_le s a ha
    have := List.length_pos_iff.2 (h x (by simp))
    omega

theorem totalLen_take_succ (s : List (Nat × List (Option Val))) (i : Nat) (x : Nat × List (Option Val))
    (h : s[i]? = some x) : totalLen (s.take (i + 1)) = totalLen (s.take i) + x.2.length := by
  rw [List.take_add_one, h]; simp [totalLen]

theorem occursAt_iff (s : List (Nat × List (Option Val))) (v : Val) (p : Nat) :
    OccursAt s v p ↔ ∃ i x o, s[i]? = some x ∧ x.2[o]? = some (some v) ∧ p = totalLen (s.take i) + o := by
  constructor
  · rintro ⟨pre, x, post, o, rfl, h2, h3⟩
    exact ⟨pre.length, x, o, by simp, h2, by simpa using h3⟩
  · rintro ⟨i, x, o, h1, h2, h3⟩
    obtain ⟨hi, rfl⟩ := List.getElem?_eq_some_iff.1 h1
    exact ⟨s.take i, s[i], s.drop (i + 1), o, by simp, h2, h3⟩

/-! ## The sequences of a batch -/

theorem mem_seqsOf (f : String) (l : List (Nat × String × Values)) (d : Nat) (vs : List (Option Val)) :
    (d, vs) ∈ seqsOf true f l ↔ (d, f, Values.seq vs) ∈ l ∧ vs ≠ [] := by
  simp only [seqsOf, List.mem_filterMap]
  constructor
  · rintro ⟨⟨e, g, ws⟩, h1, h2⟩
    cases ws with
    | bag ws => simp at h2
    | seq ws =>
      simp only [Option.ite_none_right_eq_some, Option.some.injEq, Prod.mk.injEq] at h2
      obtain ⟨⟨rfl, h3⟩, rfl, rfl⟩ := h2
      exact ⟨h1, h3⟩
  · rintro ⟨h1, h2⟩
    exact ⟨_, h1, by simp [h2]⟩

section
variable {corpus : Corpus} {content : Val → Features}

theorem GoodBatch.key {b : List (Nat × Val)} (hb : GoodBatch corpus b) {x : Nat × Val} (hx : x ∈ b) :
    x.2 ∈ corpus.keys := List.mem_of_getElem? (hb.part x hx)

theorem mem_batchSeqs (b : List (Nat × Val)) (f : String) (d : Nat) (vs : List (Option Val)) :
    (d, vs) ∈ seqsOf true f (triplesOf content b) ↔ ∃ k, (d, k) ∈ b ∧ (f, Values.seq vs) ∈ content k ∧ vs ≠ [] := by
  rw [mem_seqsOf, mem_triplesOf]
  constructor
  · rintro ⟨⟨k, h1, h2⟩, h3⟩; exact ⟨k, h1, h2, h3⟩
  · rintro ⟨k, h1, h2, h3⟩; exact ⟨⟨k, h1, h2⟩, h3⟩

theorem batchSeqs_sorted (hs : Serves corpus content) {b : List (Nat × Val)} (hb : GoodBatch corpus b) (f : String) :
    ((seqsOf true f (triplesOf content b)).map (·.1)).Pairwise (· < ·) := by
  rw [List.pairwise_map, seqsOf, List.pairwise_filterMap, triplesOf, List.pairwise_flatMap]
  constructor
  · intro x hx
    rw [List.pairwise_map]
    have hn := List.pairwise_map.1 (hs.fields x.2 (hb.key hx))
    refine hn.imp ?_
    rintro ⟨g, u⟩ ⟨g', u'⟩ hne y hy z hz
    cases u <;> cases u' <;> simp at hy hz
    exact absurd (hy.1.1.trans hz.1.1.symm) hne
  · refine hb.sorted.imp ?_
    intro x y hlt t ht t' ht' z hz z' hz'
    obtain ⟨⟨g, u⟩, -, rfl⟩ := List.mem_map.1 ht
    obtain ⟨⟨g', u'⟩, -, rfl⟩ := List.mem_map.1 ht'
    cases u <;> cases u' <;> simp at hz hz'
    rw [← hz.2, ← hz'.2]; exact hlt

theorem batchSeqs_nonempty (b : List (Nat × Val)) (f : String) :
    ∀ x ∈ seqsOf true f (triplesOf content b), x.2 ≠ [] := by
  rintro ⟨d, vs⟩ hx
  obtain ⟨-, -, -, h⟩ := (mem_batchSeqs b f d vs).1 hx
  exact h

/-- The content of a field is determined. -/
theorem field_unique (hs : Serves corpus content) {k : Val} (hk : k ∈ corpus.keys) {f : String} {u v : Values}
    (h1 : (f, u) ∈ content k) (h2 : (f, v) ∈ content k) : u = v := by
  have hn := hs.fields k hk
  generalize content k = l at *
  induction l with
  | nil => simp at h1
  | cons a l ih =>
    simp only [List.map_cons, List.nodup_cons] at hn
    rcases List.mem_cons.1 h1 with e1 | h1 <;> rcases List.mem_cons.1 h2 with e2 | h2
    · rw [← e1] at e2; exact (congrArg Prod.snd e2).symm
    · exact absurd (List.mem_map.2 ⟨_, h2, by rw [← e1]⟩) hn.1
    · exact absurd (List.mem_map.2 ⟨_, h1, by rw [← e2]⟩) hn.1
    · exact ih h1 h2 hn.2

theorem GoodBatch.first_le {b : List (Nat × Val)} (hb : GoodBatch corpus b) {first : Nat}
    (h : (b.map (·.1)).head? = some first) {x : Nat × Val} (hx : x ∈ b) : first ≤ x.1 := by
  have hs := hb.sorted
  cases b with
  | nil => simp at hx
  | cons a b =>
    simp only [List.map_cons, List.head?_cons, Option.some.injEq] at h
    subst h
    rcases List.mem_cons.1 hx with rfl | hx
    · exact le_refl _
    · exact le_of_lt ((List.pairwise_cons.1 hs).1 x hx)

theorem GoodBatch.le_last {b : List (Nat × Val)} (hb : GoodBatch corpus b) {last : Nat}
    (h : (b.map (·.1)).getLast? = some last) {x : Nat × Val} (hx : x ∈ b) : x.1 ≤ last := by
  have hs := hb.sorted
  rcases List.eq_nil_or_concat b with rfl | ⟨b', a, rfl⟩
  · simp at hx
  · simp only [List.concat_eq_append] at *
    simp only [List.map_append, List.map_cons, List.map_nil, List.getLast?_append, List.getLast?_singleton,
      Option.some_or, Option.some.injEq] at h
    subst h
    rw [List.pairwise_append] at hs
    rcases List.mem_append.1 hx with hx | hx
    · exact le_of_lt (hs.2.2 x hx a (by simp))
    · simp at hx; rw [hx]

end

section
variable {corpus : Corpus} {content : Val → Features} {bs : List (List (Nat × Val))} {segs : List SegRow}
  {pos : List PosDocRow}

/-- What is known about a row of `position_doc_map`, in terms of the sequences of its batch. -/
structure PosRowOk (content : Val → Features) (b : List (Nat × Val)) (m : PosDocRow) : Prop where
  docs : m.docs.elems = (seqsOf true m.field (triplesOf content b)).map (·.1)
  bounds : m.bounds.elems = offsets (seqsOf true m.field (triplesOf content b))
  count : m.docsCount = m.docs.card

theorem TempOk.posRow (h : TempOk corpus content true bs segs pos) (hs : Serves corpus content)
    {b : List (Nat × Val)} (hb : b ∈ bs) {m : PosDocRow} (hm : m ∈ (workerOut corpus true b).pos) :
    PosRowOk content b m := by
  obtain ⟨first, last, -, -, -, g⟩ := h.out b hb
  obtain ⟨-, -, h1, h2, h3⟩ := g.pos m hm
  refine ⟨?_, ?_, h1⟩
  · rw [h2]
    exact Bitmap.elems_eq_of_sorted (batchSeqs_sorted hs (h.good b hb) m.field) (fun x => by simp)
  · rw [h3]
    exact Bitmap.elems_eq_of_sorted (offsets_sorted _ (batchSeqs_nonempty b m.field)) (fun x => by simp)

theorem PosRowOk.at {b : List (Nat × Val)} {m : PosDocRow} (h : PosRowOk content b m) {i d : Nat}
    (hd : m.docs.elems[i]? = some d) : ∃ vs, (seqsOf true m.field (triplesOf content b))[i]? = some (d, vs) ∧
      m.bounds.elems[i]? = some (totalLen ((seqsOf true m.field (triplesOf content b)).take i)) ∧
      m.bounds.elems[i + 1]? = some (totalLen ((seqsOf true m.field (triplesOf content b)).take i) + vs.length) := by
  rw [h.docs, List.getElem?_map] at hd
  cases hx : (seqsOf true m.field (triplesOf content b))[i]? with
  | none => rw [hx] at hd; simp at hd
  | some x =>
    rw [hx] at hd
    simp only [Option.map_some, Option.some.injEq] at hd
    have hi := (List.getElem?_eq_some_iff.1 hx).1
    obtain ⟨d', vs⟩ := x
    simp only at hd
    subst hd
    refine ⟨vs, rfl, ?_, ?_⟩
    · rw [h.bounds]; exact offsets_getElem? _ i (by omega)
    · rw [h.bounds, offsets_getElem? _ (i + 1) (by omega), totalLen_take_succ _ _ _ hx]

end

section
variable {corpus : Corpus} {content : Val → Features} {cfg : IndexCfg} {s : Schedule} {db : DB}

theorem reindexed_posDocMap : (reindexed corpus cfg s db).posDocMap = tempPos corpus cfg s := rfl

theorem reindexed_posIndex : (reindexed corpus cfg s db).posIndex =
    ((tempSegs corpus cfg s).filter (fun r => 0 < r.posCount)).map (posRowOf (afterMerge corpus cfg s db)) := rfl

theorem reindexed_isPositionIndex (hs : Serves corpus content) (hi : Indexable corpus content cfg.positions)
    (hf : Fair s) (hw : Wellformed db) (hp : cfg.positions = true)
    (hsum : ∀ field, (∃ row ∈ (reindexed corpus cfg s db).fieldSummary, row.field = field ∧ 0 < row.positionCount) ↔
      ∃ k ∈ corpus.keys, ∃ vs, (field, Values.seq vs) ∈ content k ∧ vs ≠ []) :
    IsPositionIndexOf corpus content (reindexed corpus cfg s db) := by
  have ht := tempOk corpus content cfg s hs hi hf
  have hM := merged corpus cfg s hw
  rw [hp] at ht
  have hmem : ∀ m, m ∈ (reindexed corpus cfg s db).posDocMap ↔
      ∃ b ∈ submitted (indexEvents corpus cfg s).1, m ∈ (workerOut corpus true b).pos := fun m => ht.mem_pos m
  have hrow : ∀ x ∈ tempSegs corpus cfg s, ∃ f ∈ (reindexed corpus cfg s db).features, f.field = x.field ∧
      f.value = x.value ∧ fidOf (afterMerge corpus cfg s db) x.field x.value = f.fid := by
    intro x hx
    obtain ⟨f, h1, h2⟩ := hM.present (x.field, x.value) ((mem_tempKeys hf _).2 (List.mem_map.2 ⟨x, hx, rfl⟩))
    simp only [FeatRow.key, Prod.mk.injEq] at h2
    refine ⟨f, h1, h2.1, h2.2, ?_⟩
    rw [← h2.1, ← h2.2]; exact fidOf_eq hM.keys h1
  -- a partition exists for each sequence of a batch
  have hpart : ∀ b ∈ submitted (indexEvents corpus cfg s).1, ∀ f d vs,
      (d, vs) ∈ seqsOf true f (triplesOf content b) → ∃ m ∈ (workerOut corpus true b).pos, m.field = f := by
    intro b hb f d vs hx
    obtain ⟨first, last, -, -, -, g⟩ := ht.out b hb
    exact g.posPresent f (List.ne_nil_of_mem hx)
  constructor
  · intro m hm
    obtain ⟨b, hb, hmb⟩ := (hmem m).1 hm
    have hok := ht.posRow hs hb hmb
    obtain ⟨first, last, hh, hl, -, g⟩ := ht.out b hb
    refine ⟨by rw [hok.docs, hok.bounds]; simp [offsets_length], ?_, hok.count, ?_⟩
    · rw [hok.bounds, offsets_getElem? _ 0 (by omega)]; simp [totalLen]
    · intro i d lo hi' h1 h2 h3
      obtain ⟨vs, a1, a2, a3⟩ := hok.at h1
      obtain ⟨k, b1, b2, b3⟩ := (mem_batchSeqs b m.field d vs).1 (List.mem_of_getElem? a1)
      have hg := ht.good b hb
      refine ⟨?_, ?_, k, vs, hg.part _ b1, b2, b3, ?_⟩
      · rw [(g.pos m hmb).1]; exact hg.first_le hh b1
      · rw [(g.pos m hmb).2.1]; exact hg.le_last hl b1
      · rw [a2] at h2; rw [a3] at h3; simp only [Option.some.injEq] at h2 h3; omega
  · intro d k f vs h1 h2 h3
    obtain ⟨b, hb, hdk⟩ := (ht.mem_batch d k).1 h1
    have hx := (mem_batchSeqs b f d vs).2 ⟨k, hdk, h2, h3⟩
    obtain ⟨m, hm, rfl⟩ := hpart b hb f d vs hx
    have hok := ht.posRow hs hb hm
    refine ⟨m, (hmem m).2 ⟨b, hb, hm⟩, rfl, ?_, ?_⟩
    · rw [← Bitmap.mem_elems, hok.docs]; exact List.mem_map.2 ⟨_, hx, rfl⟩
    · intro m' hm' e hd
      obtain ⟨b', hb', hmb'⟩ := (hmem m').1 hm'
      have hok' := ht.posRow hs hb' hmb'
      rw [← Bitmap.mem_elems, hok'.docs] at hd
      obtain ⟨⟨d', vs'⟩, hx', rfl⟩ := List.mem_map.1 hd
      obtain ⟨k', c1, -, -⟩ := (mem_batchSeqs b' m'.field d' vs').1 hx'
      have := ht.batch_unique hb hb' hdk c1 rfl
      subst this
      obtain ⟨first, last, -, -, -, g⟩ := ht.out b hb
      have hn := List.pairwise_map.1 g.posKeys
      have : ∀ l : List PosDocRow, l.Pairwise (fun a b => a.field ≠ b.field) → m ∈ l → m' ∈ l → m' = m := by
        intro l hl
        induction l with
        | nil => intro h; simp at h
        | cons a l ih =>
          rw [List.pairwise_cons] at hl
          intro h1 h2
          rcases List.mem_cons.1 h1 with g1 | g1 <;> rcases List.mem_cons.1 h2 with g2 | g2
          · rw [g1, g2]
          · exact absurd e.symm (by rw [g1]; exact hl.1 m' g2)
          · exact absurd e (by rw [g2]; exact hl.1 m g1)
          · exact ih hl.2 g1 g2
      exact this _ hn hm hmb'
  · intro r hr
    rw [reindexed_posIndex] at hr
    obtain ⟨x, hx, rfl⟩ := List.mem_map.1 hr
    rw [List.mem_filter, decide_eq_true_eq] at hx
    obtain ⟨hx, hpc⟩ := hx
    obtain ⟨f, hf1, e1, e2, e3⟩ := hrow x hx
    obtain ⟨b, hb, hxb⟩ := (ht.mem_segs x).1 hx
    obtain ⟨first, last, -, -, -, g⟩ := ht.out b hb
    obtain ⟨q1, -, q2, -, q3⟩ := g.seg x hxb
    rw [q2] at hpc
    obtain ⟨p0, hp0⟩ := Finset.card_pos.1 hpc
    obtain ⟨i0, ⟨d0, vs0⟩, o0, s0, -, -⟩ := (occursAt_iff _ _ _).1 ((q3 p0).1 hp0)
    obtain ⟨m, hm, hmf⟩ := hpart b hb x.field d0 vs0 (List.mem_of_getElem? s0)
    have hok := ht.posRow hs hb hm
    refine ⟨f, hf1, e3.symm, q2, m, (hmem m).2 ⟨b, hb, hm⟩, hmf.trans e1.symm, ?_, ?_⟩
    · rw [(g.pos m hm).1]; exact q1.symm
    · intro p
      show p ∈ x.positions ↔ _
      rw [q3, occursAt_iff, ← hmf]
      constructor
      · rintro ⟨i, ⟨d, vs⟩, o, t1, t2, t3⟩
        have hd : m.docs.elems[i]? = some d := by rw [hok.docs, List.getElem?_map, t1]; rfl
        obtain ⟨vs', u1, u2, -⟩ := hok.at hd
        obtain ⟨k, c1, c2, c3⟩ := (mem_batchSeqs b m.field d vs).1 (List.mem_of_getElem? t1)
        refine ⟨i, d, _, o, hd, u2, t3, k, vs, (ht.good b hb).part _ c1, ?_, ?_⟩
        · rw [e1, ← hmf]; exact c2
        · rw [e2]; exact t2
      · rintro ⟨i, d, lo, o, t1, t2, t3, k, vs, t4, t5, t6⟩
        obtain ⟨vs', u1, u2, -⟩ := hok.at t1
        obtain ⟨k', c1, c2, c3⟩ := (mem_batchSeqs b m.field d vs').1 (List.mem_of_getElem? u1)
        have hk' := (ht.good b hb).part _ c1
        simp only at hk'
        rw [t4] at hk'
        simp only [Option.some.injEq] at hk'
        subst hk'
        rw [e1, ← hmf] at t5
        have := field_unique hs (List.mem_of_getElem? t4) t5 c2
        simp only [Values.seq.injEq] at this
        subst this
        refine ⟨i, (d, vs), o, u1, ?_, ?_⟩
        · rw [← e2]; exact t6
        · rw [u2] at t2; simp only [Option.some.injEq] at t2; rw [t3, ← t2]
  · intro d k field vs o value h1 h2 h3
    obtain ⟨b, hb, hdk⟩ := (ht.mem_batch d k).1 h1
    have hne : vs ≠ [] := by rintro rfl; simp at h3
    have hx := (mem_batchSeqs b field d vs).2 ⟨k, hdk, h2, hne⟩
    obtain ⟨m, hm, rfl⟩ := hpart b hb field d vs hx
    have hok := ht.posRow hs hb hm
    obtain ⟨i, hix⟩ := List.getElem?_of_mem hx
    have hd : m.docs.elems[i]? = some d := by rw [hok.docs, List.getElem?_map, hix]; rfl
    obtain ⟨vs', u1, u2, -⟩ := hok.at hd
    obtain ⟨first, last, -, -, -, g⟩ := ht.out b hb
    obtain ⟨x, hxs, e⟩ := List.mem_map.1 ((g.present m.field value).2
      ⟨d, k, _, hdk, h2, List.mem_of_getElem? h3⟩)
    simp only [Prod.mk.injEq] at e
    have hxt := (ht.mem_segs x).2 ⟨b, hb, hxs⟩
    obtain ⟨f, hf1, e1, e2, e3⟩ := hrow x hxt
    obtain ⟨q1, -, q2, -, q3⟩ := g.seg x hxs
    have hin : totalLen ((seqsOf true m.field (triplesOf content b)).take i) + o ∈ x.positions := by
      rw [q3, occursAt_iff, e.1, e.2]
      exact ⟨i, (d, vs), o, hix, h3, rfl⟩
    refine ⟨f, hf1, e1.trans e.1, e2.trans e.2, m, (hmem m).2 ⟨b, hb, hm⟩, rfl, i, _, hd, u2,
      posRowOf (afterMerge corpus cfg s db) x, ?_, e3, ?_, hin⟩
    · rw [reindexed_posIndex]
      refine List.mem_map.2 ⟨x, List.mem_filter.2 ⟨hxt, ?_⟩, rfl⟩
      simp only [decide_eq_true_eq, q2]
      exact Finset.card_pos.2 ⟨_, hin⟩
    · rw [(g.pos m hm).1]; exact q1
  · rw [reindexed_posDocMap]
    exact List.pairwise_map.2 (ht.pos_apart.imp (fun h e => h (by simpa using e)))
  · rw [reindexed_posIndex, List.map_map]
    refine List.pairwise_map.2 (List.Pairwise.imp_of_mem ?_ (ht.segs_apart.filter _))
    intro x y hx hy hne e
    obtain ⟨f, hf1, e1, e2, e3⟩ := hrow x (List.mem_filter.1 hx).1
    obtain ⟨g, hg1, g1, g2, g3⟩ := hrow y (List.mem_filter.1 hy).1
    simp only [Function.comp_apply, posRowOf, Prod.mk.injEq] at e
    rw [e3, g3] at e
    have h1 := feature?_of_mem (reindexed_ids (corpus := corpus) (cfg := cfg) (s := s) hw) hf1
    have h2 := feature?_of_mem (reindexed_ids (corpus := corpus) (cfg := cfg) (s := s) hw) hg1
    rw [e.1, h2] at h1
    simp only [Option.some.injEq] at h1
    subst h1
    exact hne ⟨e1.symm.trans g1, e2.symm.trans g2, e.2⟩
  · exact hsum

end
end Hyperreal
