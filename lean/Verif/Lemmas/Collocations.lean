import Verif.Lemmas.ScorePassages
import Mathlib.Algebra.BigOperators.Group.Finset.Basic
import Mathlib.Data.Finset.Union

namespace Hyperreal
open Spec Bitmap DB

/-! ## Sums of counts -/

theorem get?_addCounts (f : Nat) (counts : List (Nat × Nat × Nat)) : ∀ acc : Dict Nat (Nat × Nat),
    (Dict.get? (addCounts acc counts) f).getD (0, 0) =
      (((Dict.get? acc f).getD (0, 0)).1 + ((counts.filter (fun c => c.1 = f)).map (·.2.1)).sum,
       ((Dict.get? acc f).getD (0, 0)).2 + ((counts.filter (fun c => c.1 = f)).map (·.2.2)).sum) := by
  induction counts with
  | nil => intro acc; simp [addCounts]
  | cons c counts ih =>
    intro acc
    have e : addCounts acc (c :: counts) = addCounts (acc.set c.1 (((acc.get? c.1).getD (0, 0)).1 + c.2.1,
      ((acc.get? c.1).getD (0, 0)).2 + c.2.2)) counts := rfl
    rw [e, ih, Dict.get?_set, List.filter_cons]
    by_cases h : f = c.1
    · subst h
      simp [Nat.add_assoc]
    · rw [if_neg h, if_neg (by simp; exact fun h' => h h'.symm)]

theorem keys_addCounts (f : Nat) (counts : List (Nat × Nat × Nat)) : ∀ acc : Dict Nat (Nat × Nat),
    f ∈ (addCounts acc counts).keys ↔ f ∈ acc.keys ∨ ∃ c ∈ counts, c.1 = f := by
  induction counts with
  | nil => intro acc; simp [addCounts]
  | cons c counts ih =>
    intro acc
    have e : addCounts acc (c :: counts) = addCounts (acc.set c.1 (((acc.get? c.1).getD (0, 0)).1 + c.2.1,
      ((acc.get? c.1).getD (0, 0)).2 + c.2.2)) counts := rfl
    rw [e, ih, Dict.mem_keys_set]
    constructor
    · rintro ((rfl | h) | ⟨c', h, rfl⟩)
      · exact Or.inr ⟨c, by simp, rfl⟩
      · exact Or.inl h
      · exact Or.inr ⟨c', by simp [h], rfl⟩
    · rintro (h | ⟨c', h, rfl⟩)
      · exact Or.inl (Or.inr h)
      · rcases List.mem_cons.1 h with rfl | h
        · exact Or.inl (Or.inl rfl)
        · exact Or.inr ⟨c', h, rfl⟩

theorem get?_foldl_addCounts (f : Nat) (results : List (List (Nat × Nat × Nat) × Nat × Nat)) : ∀ acc : Dict Nat (Nat × Nat),
    (Dict.get? (results.foldl (fun acc r => addCounts acc r.1) acc) f).getD (0, 0) =
      (((Dict.get? acc f).getD (0, 0)).1 + (results.map (fun r => ((r.1.filter (fun c => c.1 = f)).map (·.2.1)).sum)).sum,
       ((Dict.get? acc f).getD (0, 0)).2 + (results.map (fun r => ((r.1.filter (fun c => c.1 = f)).map (·.2.2)).sum)).sum) := by
  induction results with
  | nil => intro acc; simp
  | cons r results ih => intro acc; rw [List.foldl_cons, ih, get?_addCounts]; simp [Nat.add_assoc]

theorem keys_foldl_addCounts (f : Nat) (results : List (List (Nat × Nat × Nat) × Nat × Nat)) : ∀ acc : Dict Nat (Nat × Nat),
    f ∈ (results.foldl (fun acc r => addCounts acc r.1) acc).keys ↔ f ∈ acc.keys ∨ ∃ r ∈ results, ∃ c ∈ r.1, c.1 = f := by
  induction results with
  | nil => intro acc; simp
  | cons r results ih => intro acc; rw [List.foldl_cons, ih, keys_addCounts]; simp [or_assoc]

/-! ## Coordinates -/

section
variable {corpus : Corpus} {content : Val → Features} {db : DB}

/-- Document and offset of a position. -/
def coord (m : PosDocRow) (p : Nat) : Nat × Nat := (docAt m.docs m.bounds p, p - loAt m.bounds p)

theorem Tile.coord {m : PosDocRow} {i d lo o : Nat} {vs : List (Option Val)} (t : Tile corpus content m i d lo vs)
    (ho : o < vs.length) : coord m (lo + o) = (d, o) := by
  rw [Hyperreal.coord, t.docAt ho, t.loAt ho, Nat.add_sub_cancel_left]

theorem coord_inj (hP : IsPositionIndexOf corpus content db) {m : PosDocRow} (hm : m ∈ db.posDocMap) {p q : Nat}
    (hp : Inside m.bounds p) (hq : Inside m.bounds q) (h : coord m p = coord m q) : p = q := by
  obtain ⟨i, d, lo, vs, o, t, rfl, ho⟩ := tile_of_inside hP hm hp
  obtain ⟨i', d', lo', vs', o', t', rfl, ho'⟩ := tile_of_inside hP hm hq
  rw [t.coord ho, t'.coord ho', Prod.mk.injEq] at h
  obtain ⟨rfl, rfl⟩ := h
  have hi : i = i' := by
    obtain ⟨g1, e1⟩ := List.getElem?_eq_some_iff.1 t.doc
    obtain ⟨g2, e2⟩ := List.getElem?_eq_some_iff.1 t'.doc
    exact (elems_nodup _).getElem_inj_iff.1 (e1.trans e2.symm)
  subst hi
  have := t.atLo
  rw [t'.atLo] at this
  rw [Option.some.inj this]

/-- The partitions of a field. -/
def partsOf (db : DB) (field : String) : List PosDocRow := db.posDocMap.filter (fun m => m.field = field)

theorem mem_partsOf {field : String} {m : PosDocRow} : m ∈ partsOf db field ↔ m ∈ db.posDocMap ∧ m.field = field := by
  simp [partsOf]

theorem partsOf_nodup (hP : IsPositionIndexOf corpus content db) (field : String) : (partsOf db field).Nodup :=
  (List.Nodup.of_map _ hP.partitions).filter _

/-- Adding up the sizes over the partitions counts document-offset pairs. -/
theorem card_parts (hP : IsPositionIndexOf corpus content db) (field : String) (P : PosDocRow → Bitmap)
    (hin : ∀ m ∈ partsOf db field, ∀ p ∈ P m, Inside m.bounds p) :
    ∃ A : Finset (Nat × Nat), ((partsOf db field).map (fun m => (P m).card)).sum = A.card ∧
      ∀ x, x ∈ A ↔ ∃ m ∈ partsOf db field, ∃ p ∈ P m, x = coord m p := by
  classical
  refine ⟨(partsOf db field).toFinset.biUnion (fun m => (P m).image (coord m)), ?_, ?_⟩
  · rw [Finset.card_biUnion]
    · rw [← List.sum_toFinset _ (partsOf_nodup hP field)]
      apply Finset.sum_congr rfl
      intro m hm
      rw [List.mem_toFinset] at hm
      rw [Finset.card_image_of_injOn]
      intro p hp q hq h
      exact coord_inj hP (mem_partsOf.1 hm).1 (hin m hm p hp) (hin m hm q hq) h
    · intro m hm m' hm' hne
      rw [Finset.mem_coe, List.mem_toFinset] at hm hm'
      show Disjoint _ _
      rw [Finset.disjoint_left]
      intro x hx hx'
      obtain ⟨p, hp, rfl⟩ := Finset.mem_image.1 hx
      obtain ⟨q, hq, e⟩ := Finset.mem_image.1 hx'
      have h1 := (hin m hm p hp).doc (hP.tiles m (mem_partsOf.1 hm).1).1
      have h2 := (hin m' hm' q hq).doc (hP.tiles m' (mem_partsOf.1 hm').1).1
      have e1 : docAt m'.docs m'.bounds q = docAt m.docs m.bounds p := congrArg Prod.fst e
      rw [e1] at h2
      exact hne (partition_of_doc hP (mem_partsOf.1 hm).1 (mem_partsOf.1 hm').1
        ((mem_partsOf.1 hm).2.trans (mem_partsOf.1 hm').2.symm)
        (mem_elems.1 (List.mem_of_getElem? h1)) (mem_elems.1 (List.mem_of_getElem? h2)))
  · intro x
    simp only [Finset.mem_biUnion, List.mem_toFinset, Finset.mem_image]
    constructor
    · rintro ⟨m, hm, p, hp, rfl⟩; exact ⟨m, hm, p, hp, rfl⟩
    · rintro ⟨m, hm, p, hp, rfl⟩; exact ⟨m, hm, p, hp, rfl⟩

/-- The last document of a partition. -/
def endDoc (m : PosDocRow) : Nat := m.docs.elems.getLast?.getD 0

theorem Tile.endDoc {m : PosDocRow} {i d lo : Nat} {vs : List (Option Val)} (t : Tile corpus content m i d lo vs)
    (he : m.docs.elems[i + 1]? = none) : endDoc m = d := by
  have h1 := List.getElem?_eq_none_iff.1 he
  obtain ⟨h2, h3⟩ := List.getElem?_eq_some_iff.1 t.doc
  have h4 : m.docs.elems.length - 1 = i := by omega
  rw [Hyperreal.endDoc, List.getLast?_eq_getElem?, h4, t.doc]; rfl

/-- Positions just after the end of the partitions count final documents. -/
theorem card_ends (hP : IsPositionIndexOf corpus content db) (field : String) (P : PosDocRow → Bitmap)
    (hin : ∀ m ∈ partsOf db field, ∀ p ∈ P m, ∃ i d lo vs, Tile corpus content m i d lo vs ∧ m.docs.elems[i + 1]? = none ∧
      p = lo + vs.length) :
    ∃ A : Finset Nat, ((partsOf db field).map (fun m => (P m).card)).sum = A.card ∧
      ∀ x, x ∈ A ↔ ∃ m ∈ partsOf db field, ∃ p ∈ P m, x = endDoc m := by
  classical
  refine ⟨(partsOf db field).toFinset.biUnion (fun m => (P m).image (fun _ => endDoc m)), ?_, ?_⟩
  · rw [Finset.card_biUnion]
    · rw [← List.sum_toFinset _ (partsOf_nodup hP field)]
      apply Finset.sum_congr rfl
      intro m hm
      rw [List.mem_toFinset] at hm
      rw [Finset.card_image_of_injOn]
      intro p hp q hq _
      obtain ⟨i, d, lo, vs, t, he, rfl⟩ := hin m hm p hp
      obtain ⟨i', d', lo', vs', t', he', rfl⟩ := hin m hm q hq
      have hi : i = i' := by
        have h1 := List.getElem?_eq_none_iff.1 he
        have h2 := (List.getElem?_eq_some_iff.1 t.doc).1
        have h1' := List.getElem?_eq_none_iff.1 he'
        have h2' := (List.getElem?_eq_some_iff.1 t'.doc).1
        omega
      subst hi
      have := t.atHi
      rw [t'.atHi] at this
      exact (Option.some.inj this).symm
    · intro m hm m' hm' hne
      rw [Finset.mem_coe, List.mem_toFinset] at hm hm'
      show Disjoint _ _
      rw [Finset.disjoint_left]
      intro x hx hx'
      obtain ⟨p, hp, rfl⟩ := Finset.mem_image.1 hx
      obtain ⟨q, hq, e⟩ := Finset.mem_image.1 hx'
      obtain ⟨i, d, lo, vs, t, he, -⟩ := hin m hm p hp
      obtain ⟨i', d', lo', vs', t', he', -⟩ := hin m' hm' q hq
      rw [t.endDoc he, t'.endDoc he'] at e
      subst e
      exact hne (partition_of_doc hP (mem_partsOf.1 hm).1 (mem_partsOf.1 hm').1
        ((mem_partsOf.1 hm).2.trans (mem_partsOf.1 hm').2.symm)
        (mem_elems.1 (List.mem_of_getElem? t.doc)) (mem_elems.1 (List.mem_of_getElem? t'.doc)))
  · intro x
    simp only [Finset.mem_biUnion, List.mem_toFinset, Finset.mem_image]
    constructor
    · rintro ⟨m, hm, p, hp, rfl⟩; exact ⟨m, hm, p, hp, rfl⟩
    · rintro ⟨m, hm, p, hp, rfl⟩; exact ⟨m, hm, p, hp, rfl⟩

/-- Every token is somewhere in the partitions of its field. -/
theorem tile_of_token (hP : IsPositionIndexOf corpus content db) (hs : Serves corpus content) {field : String} {d o : Nat}
    {vs : List (Option Val)} (ht : HasTokens corpus content field d vs) (ho : o < vs.length) :
    ∃ m ∈ partsOf db field, ∃ i lo, Tile corpus content m i d lo vs := by
  obtain ⟨k, h1, h2⟩ := ht
  have hne : vs ≠ [] := by rintro rfl; simp at ho
  obtain ⟨m, hm, e1, e2, -⟩ := hP.covered d k field vs h1 h2 hne
  rw [← mem_elems] at e2
  obtain ⟨i, hi⟩ := List.getElem?_of_mem e2
  obtain ⟨lo, vs', t⟩ := tile_of_doc hP hm hi
  have : vs' = vs := hasTokens_unique hs t.tokens (by rw [e1]; exact ⟨k, h1, h2⟩)
  subst this
  exact ⟨m, mem_partsOf.2 ⟨hm, e1⟩, i, lo, t⟩

/-- The counts of one partition. -/
theorem countPartition_spec (hP : IsPositionIndexOf corpus content db) {m : PosDocRow} (hm : m ∈ db.posDocMap)
    (features : List Nat) (w : Nat)
    (hin : ∀ p ∈ unionPositions db m.firstDoc features, Inside m.bounds p) :
    ∃ counts valid, countPartition db m.field m.firstDoc features w =
        .ok (counts, (unionPositions db m.firstDoc features).card, valid.card) ∧
      (∀ q, q ∈ valid ↔ ∃ p ∈ unionPositions db m.firstDoc features, Reach m.bounds w p q) ∧
      (∀ f, ((counts.filter (fun c => c.1 = f)).map (·.2.1)).sum =
          (if f ∈ features then 0 else (valid ∩ partitionPositions db m.firstDoc f).card) ∧
        ((counts.filter (fun c => c.1 = f)).map (·.2.2)).sum =
          (if f ∈ features then 0 else (partitionPositions db m.firstDoc f).card)) ∧
      ∀ c ∈ counts, c.1 ∉ features ∧ (∃ r ∈ db.posIndex, r.fid = c.1 ∧ r.firstDoc = m.firstDoc) ∧
        partitionPositions db m.firstDoc c.1 ≠ ∅ := by
  obtain ⟨valid, h1, h2⟩ := window_total (w := w) (unionPositions db m.firstDoc features) hin
  set others := (db.posIndex.filter (fun r => r.firstDoc = m.firstDoc)).map (·.fid) with hothers
  set G : Nat → Nat × Nat × Nat := fun f => (f, (valid ∩ partitionPositions db m.firstDoc f).card,
    (partitionPositions db m.firstDoc f).card) with hG
  refine ⟨(others.filter (fun f => f ∉ features ∧ partitionPositions db m.firstDoc f ≠ ∅)).map G, valid, ?_, h2, ?_, ?_⟩
  · rw [countPartition, header_eq hP hm]
    show (expandWindow (unionPositions db m.firstDoc features) m.bounds w >>= fun valid => _) = _
    rw [h1]; rfl
  · have hnod : others.Nodup := by
      rw [hothers]
      refine List.pairwise_map.2 (List.Pairwise.imp_of_mem ?_ ((List.pairwise_map.1 hP.rows).filter _))
      intro a b ha hb hne e
      have ha := (List.mem_filter.1 ha).2
      have hb := (List.mem_filter.1 hb).2
      simp only [decide_eq_true_eq] at ha hb
      exact hne (Prod.ext e (ha.trans hb.symm))
    have hout : ∀ f, f ∉ others → partitionPositions db m.firstDoc f = ∅ := by
      intro f hf
      rw [partitionPositions]
      cases hq : db.posIndex.find? (fun r => r.fid = f ∧ r.firstDoc = m.firstDoc) with
      | none => rfl
      | some r =>
        exfalso
        have he := List.find?_some hq
        simp only [decide_eq_true_eq] at he
        exact hf (List.mem_map.2 ⟨r, List.mem_filter.2 ⟨List.mem_of_find?_eq_some hq, by simp [he.2]⟩, he.1⟩)
    intro f
    have key : (((others.filter (fun f => f ∉ features ∧ partitionPositions db m.firstDoc f ≠ ∅)).map G).filter
        (fun c => c.1 = f)) = if f ∈ others ∧ f ∉ features ∧ partitionPositions db m.firstDoc f ≠ ∅ then [G f] else [] := by
      rw [List.filter_map]
      have : ((others.filter (fun f => decide (f ∉ features ∧ partitionPositions db m.firstDoc f ≠ ∅))).filter
          ((fun c : Nat × Nat × Nat => decide (c.1 = f)) ∘ G)) =
          if f ∈ others ∧ f ∉ features ∧ partitionPositions db m.firstDoc f ≠ ∅ then [f] else [] := by
        have hn := hnod.filter (fun f => decide (f ∉ features ∧ partitionPositions db m.firstDoc f ≠ ∅))
        have hmem : f ∈ others.filter (fun f => decide (f ∉ features ∧ partitionPositions db m.firstDoc f ≠ ∅)) ↔
            f ∈ others ∧ f ∉ features ∧ partitionPositions db m.firstDoc f ≠ ∅ := by simp
        rw [← if_congr hmem rfl rfl]
        generalize others.filter (fun f => decide (f ∉ features ∧ partitionPositions db m.firstDoc f ≠ ∅)) = l at hn
        clear hmem
        induction l with
        | nil => rfl
        | cons a l ih =>
          rw [List.nodup_cons] at hn
          rw [List.filter_cons, ih hn.2]
          by_cases ha : a = f
          · subst ha
            simp [hG, hn.1]
          · have : f ∈ a :: l ↔ f ∈ l := by simp [Ne.symm ha]
            simp [hG, ha, this]
      rw [this]
      split <;> rfl
    rw [key]
    split
    · rename_i hc
      rw [if_neg hc.2.1, if_neg hc.2.1]
      simp [hG]
    · rename_i hc
      by_cases hf : f ∈ features
      · simp [hf]
      · have : partitionPositions db m.firstDoc f = ∅ := by
          by_contra hne
          by_cases ho : f ∈ others
          · exact hc ⟨ho, hf, hne⟩
          · exact hne (hout f ho)
        rw [if_neg hf, if_neg hf, this]
        simp
  · intro c hc
    obtain ⟨f, hf, rfl⟩ := List.mem_map.1 hc
    simp only [List.mem_filter, decide_eq_true_eq] at hf
    obtain ⟨h3, h4, h5⟩ := hf
    obtain ⟨r, hr, rfl⟩ := List.mem_map.1 h3
    simp only [List.mem_filter, decide_eq_true_eq] at hr
    exact ⟨h4, ⟨r, hr.1, rfl, hr.2⟩, h5⟩

/-- The positions of the query features. -/
theorem queryPositions_iff (hP : IsPositionIndexOf corpus content db) (hw : Wellformed db) (hs : Serves corpus content)
    {m : PosDocRow} (hm : m ∈ db.posDocMap) (features : List Nat)
    (hf : ∀ r ∈ db.features, r.fid ∈ features → r.field = m.field) (p : Nat) :
    p ∈ unionPositions db m.firstDoc features ↔
      ∃ i d lo vs o, Tile corpus content m i d lo vs ∧ p = lo + o ∧ o < vs.length ∧ QueryAt corpus content db m.field features d o := by
  rw [mem_unionPositions]
  constructor
  · rintro ⟨f, hff, hp⟩
    by_cases hex : ∃ r ∈ db.features, r.fid = f
    · obtain ⟨r, hr, rfl⟩ := hex
      have hfield := hf r hr hff
      obtain ⟨i, d, lo, vs, o, t, e, ho⟩ := (partitionPositions_iff hP hw hs hm hr hfield p).1 hp
      exact ⟨i, d, lo, vs, o, t, e, (List.getElem?_eq_some_iff.1 ho).1, r, hr, hff, hfield, vs, t.tokens, ho⟩
    · rw [partitionPositions_unknown hP (fun r hr e => hex ⟨r, hr, e⟩)] at hp
      simp at hp
  · rintro ⟨i, d, lo, vs, o, t, e, -, r, hr, hff, hfield, vs', h1, h2⟩
    have := hasTokens_unique hs t.tokens h1
    subst this
    exact ⟨r.fid, hff, (partitionPositions_iff hP hw hs hm hr hfield p).2 ⟨i, d, lo, vs, o, t, e, h2⟩⟩

end
end Hyperreal
