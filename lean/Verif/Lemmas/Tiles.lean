import Verif.Lemmas.Passages
import Verif.Lemmas.PosIndex
import Verif.Spec.Positions

namespace Hyperreal
open Spec Bitmap DB

section
variable {corpus : Corpus} {content : Val → Features} {db : DB}

theorem hasTokens_unique (hs : Serves corpus content) {field : String} {d : Nat} {vs vs' : List (Option Val)}
    (h : HasTokens corpus content field d vs) (h' : HasTokens corpus content field d vs') : vs = vs' := by
  obtain ⟨k, h1, h2⟩ := h
  obtain ⟨k', h1', h2'⟩ := h'
  rw [h1, Option.some.injEq] at h1'
  subst h1'
  have := field_unique hs (List.mem_of_getElem? h1) h2 h2'
  simpa using this

/-- Document `d` is the `i`-th of the partition, its tokens `vs` occupy the positions from `lo`. -/
structure Tile (corpus : Corpus) (content : Val → Features) (m : PosDocRow) (i d lo : Nat) (vs : List (Option Val)) : Prop where
  doc : m.docs.elems[i]? = some d
  atLo : m.bounds.elems[i]? = some lo
  atHi : m.bounds.elems[i + 1]? = some (lo + vs.length)
  tokens : HasTokens corpus content m.field d vs
  nonempty : vs ≠ []

theorem bounds_rank {b : Bitmap} {i lo hi p : Nat} (h1 : b.elems[i]? = some lo) (h2 : b.elems[i + 1]? = some hi)
    (h3 : lo ≤ p) (h4 : p < hi) : b.rank p = i + 1 := by
  obtain ⟨g1, e1⟩ := List.getElem?_eq_some_iff.1 h1
  obtain ⟨g2, e2⟩ := List.getElem?_eq_some_iff.1 h2
  have a : i < b.rank p := by
    by_contra hc
    have := lt_getElem_of_rank_le (x := p) g1 (by omega)
    omega
  have c : b.rank p ≤ i + 1 := by
    by_contra hc
    have := getElem_le_of_lt_rank (x := p) g2 (by omega)
    omega
  omega

namespace Tile
variable {m : PosDocRow} {i d lo : Nat} {vs : List (Option Val)}

theorem rank (t : Tile corpus content m i d lo vs) {o : Nat} (ho : o < vs.length) : m.bounds.rank (lo + o) = i + 1 :=
  bounds_rank t.atLo t.atHi (by omega) (by omega)

theorem inside (t : Tile corpus content m i d lo vs) {o : Nat} (ho : o < vs.length) : Inside m.bounds (lo + o) :=
  ⟨⟨lo, mem_elems.1 (List.mem_of_getElem? t.atLo), by omega⟩,
   ⟨lo + vs.length, mem_elems.1 (List.mem_of_getElem? t.atHi), by omega⟩⟩

theorem loAt (t : Tile corpus content m i d lo vs) {o : Nat} (ho : o < vs.length) : loAt m.bounds (lo + o) = lo := by
  rw [Hyperreal.loAt, t.rank ho, Nat.add_sub_cancel, t.atLo]; rfl

theorem nextAt (t : Tile corpus content m i d lo vs) {o : Nat} (ho : o < vs.length) :
    nextAt m.bounds (lo + o) = lo + vs.length := by
  rw [Hyperreal.nextAt, t.rank ho, t.atHi]; rfl

theorem docAt (t : Tile corpus content m i d lo vs) {o : Nat} (ho : o < vs.length) :
    docAt m.docs m.bounds (lo + o) = d := by
  rw [Hyperreal.docAt, t.rank ho, Nat.add_sub_cancel, t.doc]; rfl

theorem of_rank (t : Tile corpus content m i d lo vs) {p : Nat} (hp : Inside m.bounds p) (hr : m.bounds.rank p = i + 1) :
    ∃ o, o < vs.length ∧ p = lo + o := by
  have h1 := hp.lo
  have h2 := hp.next
  rw [hr] at h1 h2
  rw [Nat.add_sub_cancel, t.atLo] at h1
  rw [t.atHi] at h2
  have h3 := h1.2.2.1
  have h4 := h2.2.2.1
  have e1 := h1.1
  have e2 := h2.1
  simp only [Option.some.injEq] at e1 e2
  exact ⟨p - lo, by omega, by omega⟩

end Tile

/-- The position lookup sees each document of the partition once. -/
theorem tile_of_doc (hP : IsPositionIndexOf corpus content db) {m : PosDocRow} (hm : m ∈ db.posDocMap) {i d : Nat}
    (hd : m.docs.elems[i]? = some d) : ∃ lo vs, Tile corpus content m i d lo vs := by
  obtain ⟨h1, h2, h3, h4⟩ := hP.tiles m hm
  have hi := (List.getElem?_eq_some_iff.1 hd).1
  have e1 := List.getElem?_eq_getElem (l := m.bounds.elems) (i := i) (by omega)
  have e2 := List.getElem?_eq_getElem (l := m.bounds.elems) (i := i + 1) (by omega)
  obtain ⟨-, -, k, vs, h5, h6, h7, h8⟩ := h4 i d _ _ hd e1 e2
  exact ⟨_, vs, hd, e1, by rw [e2, h8], ⟨k, h5, h6⟩, h7⟩

theorem tile_of_inside (hP : IsPositionIndexOf corpus content db) {m : PosDocRow} (hm : m ∈ db.posDocMap) {p : Nat}
    (hp : Inside m.bounds p) : ∃ i d lo vs o, Tile corpus content m i d lo vs ∧ p = lo + o ∧ o < vs.length := by
  have hl := (hP.tiles m hm).1
  obtain ⟨h1, h2⟩ := hp.rank
  have hd := hp.doc hl
  obtain ⟨lo, vs, t⟩ := tile_of_doc hP hm hd
  obtain ⟨o, ho, e⟩ := t.of_rank hp (by omega)
  exact ⟨_, _, lo, vs, o, t, e, ho⟩

theorem nodup_find {α β : Type} [DecidableEq β] (f : α → β) (l : List α) (hn : (l.map f).Nodup) {a : α} (ha : a ∈ l)
    {q : α → Bool} (hq : ∀ x, q x = true ↔ f x = f a) : l.find? q = some a := by
  induction l with
  | nil => simp at ha
  | cons x l ih =>
    rw [List.map_cons, List.nodup_cons] at hn
    rw [List.find?_cons]
    by_cases h : q x = true
    · rw [h]
      rcases List.mem_cons.1 ha with rfl | ha
      · rfl
      · exact absurd (List.mem_map.2 ⟨a, ha, ((hq x).1 h).symm⟩) hn.1
    · rcases List.mem_cons.1 ha with rfl | ha
      · exact absurd ((hq _).2 rfl) h
      · rw [Bool.not_eq_true] at h
        rw [h]; exact ih hn.2 ha

theorem header_eq (hP : IsPositionIndexOf corpus content db) {m : PosDocRow} (hm : m ∈ db.posDocMap) :
    partitionHeader db m.field m.firstDoc = .ok m := by
  rw [partitionHeader, nodup_find (fun m : PosDocRow => (m.field, m.firstDoc)) db.posDocMap hP.partitions hm]
  intro x; simp

theorem partition_unique (hP : IsPositionIndexOf corpus content db) {m m' : PosDocRow} (hm : m ∈ db.posDocMap)
    (hm' : m' ∈ db.posDocMap) (h1 : m.field = m'.field) (h2 : m.firstDoc = m'.firstDoc) : m = m' := by
  have a := header_eq hP hm
  have b := header_eq hP hm'
  rw [h1, h2, b] at a
  exact (Except.ok.inj a).symm

/-- Two partitions of a field have no document in common. -/
theorem partition_of_doc (hP : IsPositionIndexOf corpus content db) {m m' : PosDocRow} (hm : m ∈ db.posDocMap)
    (hm' : m' ∈ db.posDocMap) (h1 : m.field = m'.field) {d : Nat} (hd : d ∈ m.docs) (hd' : d ∈ m'.docs) : m = m' := by
  rw [← mem_elems] at hd
  obtain ⟨i, hi⟩ := List.getElem?_of_mem hd
  obtain ⟨lo, vs, t⟩ := tile_of_doc hP hm hi
  obtain ⟨k, a1, a2⟩ := t.tokens
  obtain ⟨m0, -, -, -, h⟩ := hP.covered d k m.field vs a1 a2 t.nonempty
  rw [h m hm rfl (mem_elems.1 hd), h m' hm' h1.symm hd']

theorem mem_fieldPartitions (field : String) (first : Nat) :
    first ∈ fieldPartitions db field ↔ ∃ m ∈ db.posDocMap, m.field = field ∧ m.firstDoc = first := by
  simp [fieldPartitions, List.mem_map, List.mem_filter, and_assoc]

theorem fieldPartitions_nodup (hP : IsPositionIndexOf corpus content db) (field : String) :
    (fieldPartitions db field).Nodup := by
  rw [fieldPartitions]
  refine List.pairwise_map.2 ?_
  refine List.Pairwise.imp_of_mem ?_ ((List.pairwise_map.1 hP.partitions).filter _)
  intro a b ha hb hne e
  have ha := (List.mem_filter.1 ha).2
  have hb := (List.mem_filter.1 hb).2
  simp only [decide_eq_true_eq] at ha hb
  exact hne (by rw [ha, hb, e])

theorem mem_positionalFields (field : String) :
    field ∈ positionalFields db ↔ ∃ row ∈ db.fieldSummary, row.field = field ∧ 0 < row.positionCount := by
  simp only [positionalFields, List.mem_map, List.mem_filter, decide_eq_true_eq]
  constructor
  · rintro ⟨r, ⟨h1, h2⟩, h3⟩; exact ⟨r, h1, h3, h2⟩
  · rintro ⟨r, h1, h3, h2⟩; exact ⟨r, ⟨h1, h2⟩, h3⟩

theorem feature_unique (hw : Wellformed db) {r r' : FeatRow} (h : r ∈ db.features) (h' : r' ∈ db.features)
    (e : r.fid = r'.fid) : r = r' := by
  have a := feature?_of_mem hw.featureIds h
  have b := feature?_of_mem hw.featureIds h'
  rw [e, b] at a
  exact (Option.some.inj a).symm

theorem key_unique (hw : Wellformed db) {r r' : FeatRow} (h : r ∈ db.features) (h' : r' ∈ db.features)
    (e1 : r.field = r'.field) (e2 : r.value = r'.value) : r = r' := by
  have a := nodup_find (fun r : FeatRow => (r.field, r.value)) db.features hw.featureKeys h
    (q := fun x => decide (x.field = r.field ∧ x.value = r.value)) (by intro x; simp)
  have b := nodup_find (fun r : FeatRow => (r.field, r.value)) db.features hw.featureKeys h'
    (q := fun x => decide (x.field = r.field ∧ x.value = r.value)) (by intro x; simp [e1, e2])
  rw [a] at b
  exact Option.some.inj b

/-- The positions of a feature in a partition of its field. -/
theorem partitionPositions_iff (hP : IsPositionIndexOf corpus content db) (hw : Wellformed db) (hs : Serves corpus content)
    {m : PosDocRow} (hm : m ∈ db.posDocMap) {f : FeatRow} (hf : f ∈ db.features) (hfm : f.field = m.field) (p : Nat) :
    p ∈ partitionPositions db m.firstDoc f.fid ↔
      ∃ i d lo vs o, Tile corpus content m i d lo vs ∧ p = lo + o ∧ vs[o]? = some (some f.value) := by
  constructor
  · intro hp
    rw [partitionPositions] at hp
    cases hq : db.posIndex.find? (fun r => r.fid = f.fid ∧ r.firstDoc = m.firstDoc) with
    | none => rw [hq] at hp; simp at hp
    | some r =>
      rw [hq] at hp
      have hr := List.mem_of_find?_eq_some hq
      have he := List.find?_some hq
      simp only [decide_eq_true_eq] at he
      obtain ⟨g, hg, e1, -, m', hm', e2, e3, h⟩ := hP.decode r hr
      have hgf : g = f := feature_unique hw hg hf (e1.trans he.1)
      subst hgf
      have hmm : m' = m := partition_unique hP hm' hm (e2.trans hfm) (e3.trans he.2)
      subst hmm
      obtain ⟨i, d, lo, o, a1, a2, a3, k, vs, a4, a5, a6⟩ := (h p).1 hp
      obtain ⟨lo', vs', t⟩ := tile_of_doc hP hm a1
      have : lo' = lo := by have := t.atLo; rw [a2] at this; exact (Option.some.inj this).symm
      subst this
      have : vs' = vs := hasTokens_unique hs t.tokens ⟨k, a4, hfm ▸ a5⟩
      subst this
      exact ⟨i, d, lo', vs', o, t, a3, a6⟩
  · rintro ⟨i, d, lo, vs, o, t, rfl, ho⟩
    obtain ⟨k, a1, a2⟩ := t.tokens
    obtain ⟨g, hg, e1, e2, m', hm', e3, i', lo', b1, b2, r, hr, c1, c2, c3⟩ := hP.stored d k m.field vs o f.value a1 a2 ho
    have hgf : g = f := key_unique hw hg hf (e1.trans hfm.symm) e2
    subst hgf
    have hmm : m' = m := partition_of_doc hP hm' hm e3 (mem_elems.1 (List.mem_of_getElem? b1))
      (mem_elems.1 (List.mem_of_getElem? t.doc))
    subst hmm
    have hii : i' = i := by
      obtain ⟨g1, e1⟩ := List.getElem?_eq_some_iff.1 b1
      obtain ⟨g2, e2⟩ := List.getElem?_eq_some_iff.1 t.doc
      exact (elems_nodup _).getElem_inj_iff.1 (e1.trans e2.symm)
    subst hii
    have : lo' = lo := by have := t.atLo; rw [b2] at this; exact (Option.some.inj this)
    subst this
    rw [partitionPositions, nodup_find (fun r : PosRow => (r.fid, r.firstDoc)) db.posIndex hP.rows hr (by
      intro x; rw [c1, c2]; simp)]
    exact c3

theorem partitionPositions_unknown (hP : IsPositionIndexOf corpus content db) {first f : Nat}
    (h : ∀ r ∈ db.features, r.fid ≠ f) : partitionPositions db first f = ∅ := by
  rw [partitionPositions]
  cases hq : db.posIndex.find? (fun r => r.fid = f ∧ r.firstDoc = first) with
  | none => rfl
  | some r =>
    have he := List.find?_some hq
    simp only [decide_eq_true_eq] at he
    obtain ⟨g, hg, e1, -⟩ := hP.decode r (List.mem_of_find?_eq_some hq)
    exact absurd (e1.trans he.1) (h g hg)

/-- Within a partition, the runs of the part of `S` in one document. -/
theorem runs_local {m : PosDocRow} {i d lo : Nat} {vs : List (Option Val)} (t : Tile corpus content m i d lo vs)
    (hl : m.bounds.elems.length = m.docs.elems.length + 1) (field : String) (S : Bitmap) (w : Nat)
    (hS : ∀ p ∈ S, Inside m.bounds p) :
    AreRuns ((Finset.range vs.length).filter (fun o => lo + o ∈ S)) w
      ((runsOf m.bounds S w).flatMap (fun e => if d = docAt m.docs m.bounds e.1 then [passageAt field m.bounds S e] else [])) := by
  have hM : ∀ o, o ∈ (Finset.range vs.length).filter (fun o => lo + o ∈ S) ↔ o < vs.length ∧ lo + o ∈ S := by
    intro o; simp
  have hloc : ∀ e ∈ runsOf m.bounds S w, d = docAt m.docs m.bounds e.1 →
      ∃ a b, a ≤ b ∧ a < vs.length ∧ b < vs.length ∧ e = (lo + a, lo + b) ∧ lo + a ∈ S ∧ lo + b ∈ S := by
    intro e he hd
    obtain ⟨h1, h2, h3, h4⟩ := runsOf_ends he
    have hin := hS _ h3
    have hr : m.bounds.rank e.1 = i + 1 := by
      have h5 := hin.doc hl
      rw [← hd] at h5
      obtain ⟨g1, e1⟩ := List.getElem?_eq_some_iff.1 h5
      obtain ⟨g2, e2⟩ := List.getElem?_eq_some_iff.1 t.doc
      have := (elems_nodup m.docs).getElem_inj_iff.1 (e1.trans e2.symm)
      have := hin.rank.1
      omega
    obtain ⟨a, ha, ea⟩ := t.of_rank hin hr
    obtain ⟨b, hb, eb⟩ := t.of_rank (hS _ h4) (h2 ▸ hr)
    refine ⟨a, b, by omega, ha, hb, Prod.ext ea eb, ea ▸ h3, eb ▸ h4⟩
  have hback : ∀ e ∈ runsOf m.bounds S w, ∀ o < vs.length, e.1 ≤ lo + o → lo + o ≤ e.2 → d = docAt m.docs m.bounds e.1 := by
    intro e he o ho h1 h2
    obtain ⟨-, h3, h4, h5⟩ := runsOf_ends he
    have a := rank_mono m.bounds _ _ h1
    have b := rank_mono m.bounds _ _ h2
    rw [← t.docAt ho]
    exact docAt_congr (by omega)
  have hpass : ∀ a b, a < vs.length → passageAt field m.bounds S (lo + a, lo + b) =
      ⟨field, a, b, S.rangeCard (lo + a) (lo + b + 1)⟩ := by
    intro a b ha
    simp only [passageAt, t.loAt ha]
    congr 1 <;> omega
  have hmem : ∀ p, p ∈ (runsOf m.bounds S w).flatMap (fun e => if d = docAt m.docs m.bounds e.1 then
      [passageAt field m.bounds S e] else []) ↔ ∃ a b, a ≤ b ∧ a < vs.length ∧ b < vs.length ∧ lo + a ∈ S ∧ lo + b ∈ S ∧
        (lo + a, lo + b) ∈ runsOf m.bounds S w ∧ p = ⟨field, a, b, S.rangeCard (lo + a) (lo + b + 1)⟩ := by
    intro p
    rw [List.mem_flatMap]
    constructor
    · rintro ⟨e, he, hp⟩
      split at hp
      · rename_i hd
        obtain ⟨a, b, h1, h2, h3, rfl, h5, h6⟩ := hloc e he hd
        simp only [List.mem_singleton] at hp
        exact ⟨a, b, h1, h2, h3, h5, h6, he, by rw [hp, hpass a b h2]⟩
      · simp at hp
    · rintro ⟨a, b, h1, h2, h3, h5, h6, he, rfl⟩
      refine ⟨_, he, ?_⟩
      rw [if_pos (hback _ he a h2 le_rfl (by show lo + a ≤ lo + b; omega)), hpass a b h2]
      simp
  constructor
  · intro p hp
    obtain ⟨a, b, h1, h2, h3, h4, h5, -, rfl⟩ := (hmem p).1 hp
    exact ⟨h1, (hM a).2 ⟨h2, h4⟩, (hM b).2 ⟨h3, h5⟩⟩
  · intro p hp
    obtain ⟨a, b, h1, h2, h3, h4, h5, -, rfl⟩ := (hmem p).1 hp
    show S.rangeCard (lo + a) (lo + b + 1) = _
    rw [Bitmap.rangeCard]
    symm
    apply Finset.card_bij (fun o _ => lo + o)
    · intro o ho
      simp only [Finset.mem_filter, Finset.mem_range] at ho ⊢
      exact ⟨ho.1.2, by omega, by omega⟩
    · intro o _ o' _ e; exact Nat.add_left_cancel e
    · intro x hx
      simp only [Finset.mem_filter, Finset.mem_range] at hx
      refine ⟨x - lo, ?_, by omega⟩
      simp only [Finset.mem_filter, Finset.mem_range]
      refine ⟨⟨by omega, ?_⟩, by omega, by omega⟩
      have : lo + (x - lo) = x := by omega
      rw [this]; exact hx.1
  · intro p hp o ho h6 h7
    obtain ⟨a, b, h1, h2, h3, h4, h5, he, rfl⟩ := (hmem p).1 hp
    have h6 : a ≤ o := h6
    have h7 : o < b := h7
    obtain ⟨q, q1, q2, q3, q4⟩ := runsOf_linked he ((hM o).1 ho).2 (by show lo + a ≤ _; omega) (by show _ < lo + b; omega)
    simp only at q4
    refine ⟨q - lo, (hM _).2 ⟨by omega, ?_⟩, by omega, by omega⟩
    have : lo + (q - lo) = q := by omega
    rw [this]; exact q1
  · rw [List.pairwise_flatMap]
    constructor
    · intro e _; split <;> simp
    · refine List.Pairwise.imp_of_mem ?_ (runsOf_apart S w)
      intro e e' he he' h x hx y hy
      split at hx
      · rename_i hd
        split at hy
        · rename_i hd'
          obtain ⟨a, b, h1, h2, h3, rfl, -, -⟩ := hloc e he hd
          obtain ⟨a', b', h1', h2', h3', rfl, -, -⟩ := hloc e' he' hd'
          simp only [List.mem_singleton] at hx hy
          rw [hpass _ _ h2] at hx
          rw [hpass _ _ h2'] at hy
          subst hx; subst hy
          have := h.2 (by rw [t.rank h3, t.rank h2'])
          simp only at this ⊢
          omega
        · simp at hy
      · simp at hx
  · intro o ho o' ho' hlt hle
    obtain ⟨a1, a2⟩ := (hM o).1 ho
    obtain ⟨b1, b2⟩ := (hM o').1 ho'
    obtain ⟨e, he, h1, h2⟩ := runsOf_together (bounds := m.bounds) (w := w) a2 b2 (by omega)
      (by rw [t.rank a1, t.rank b1]) (by omega)
    obtain ⟨a, b, g1, g2, g3, rfl, g5, g6⟩ := hloc e he (hback e he o a1 h1 (by omega))
    exact ⟨_, (hmem _).2 ⟨a, b, g1, g2, g3, g5, g6, he, rfl⟩, by simp only at h1 ⊢; omega, by simp only at h2 ⊢; omega⟩
  · intro o ho
    obtain ⟨a1, a2⟩ := (hM o).1 ho
    by_cases hn : ∃ o' ∈ (Finset.range vs.length).filter (fun o => lo + o ∈ S), o' ≠ o ∧ o ≤ o' + w
    · left
      obtain ⟨o', ho', hne, hle⟩ := hn
      obtain ⟨b1, b2⟩ := (hM o').1 ho'
      have key : ∃ e ∈ runsOf m.bounds S w, e.1 ≤ lo + o ∧ lo + o ≤ e.2 := by
        rcases Nat.lt_or_ge o o' with h | h
        · rcases runsOf_cover (bounds := m.bounds) (w := w) a2 with h' | h'
          · exact h'
          · have := h' _ b2; omega
        · obtain ⟨e, he, h1, h2⟩ := runsOf_together (bounds := m.bounds) (w := w) b2 a2 (by omega)
            (by rw [t.rank a1, t.rank b1]) (by omega)
          exact ⟨e, he, by omega, h2⟩
      obtain ⟨e, he, h1, h2⟩ := key
      obtain ⟨a, b, g1, g2, g3, rfl, g5, g6⟩ := hloc e he (hback e he o a1 h1 h2)
      exact ⟨_, (hmem _).2 ⟨a, b, g1, g2, g3, g5, g6, he, rfl⟩, by simp only at h1 ⊢; omega, by simp only at h2 ⊢; omega⟩
    · right
      push Not at hn
      intro o' ho'
      by_cases e : o' = o
      · exact Or.inl e
      · exact Or.inr (hn o' ho' e)

end
end Hyperreal
