import Verif.Lemmas.Dispatch
import Verif.Lemmas.Store

namespace Hyperreal
open Spec DB

def FeatRow.key (r : FeatRow) : String × Val := (r.field, r.value)

theorem key_eq_iff (r : FeatRow) (k : String × Val) : r.key = k ↔ r.field = k.1 ∧ r.value = k.2 := by
  obtain ⟨f, v⟩ := k; simp [FeatRow.key]

theorem le_nextFid (db : DB) (r : FeatRow) (hr : r ∈ db.features) : r.fid < db.nextFid := by
  simp only [nextFid]
  have gen : ∀ (l : List Nat) (a x : Nat), (x = a ∨ x ∈ l) → x ≤ l.foldl max a := by
    intro l
    induction l with
    | nil => intro a x h; simpa using h.elim (fun h => le_of_eq h) (fun h => absurd h (by simp))
    | cons b l ih =>
      intro a x h
      simp only [List.foldl_cons]
      rcases h with rfl | h
      · exact le_trans (le_max_left x b) (ih _ _ (Or.inl rfl))
      · rcases List.mem_cons.1 h with rfl | h
        · exact le_trans (le_max_right a x) (ih _ _ (Or.inl rfl))
        · exact ih _ _ (Or.inr h)
  have := gen (db.features.map (·.fid)) 0 r.fid (Or.inr (List.mem_map.2 ⟨r, hr, rfl⟩))
  omega

theorem find?_key_iff {l : List FeatRow} (hn : (l.map (·.key)).Nodup) (k : String × Val) (r : FeatRow) :
    l.find? (fun r => r.field = k.1 ∧ r.value = k.2) = some r ↔ r ∈ l ∧ r.key = k := by
  constructor
  · intro h
    exact ⟨List.mem_of_find?_eq_some h, by simpa [key_eq_iff] using List.find?_some h⟩
  · rintro ⟨hr, hk⟩
    induction l with
    | nil => simp at hr
    | cons a l ih =>
      simp only [List.map_cons, List.nodup_cons] at hn
      rcases List.mem_cons.1 hr with rfl | hr
      · rw [key_eq_iff] at hk; simp [hk]
      · have hne : ¬ (a.field = k.1 ∧ a.value = k.2) := by
          rw [← key_eq_iff]
          intro e
          exact hn.1 (List.mem_map.2 ⟨r, hr, hk.trans e.symm⟩)
        rw [List.find?_cons_of_neg (by simpa using hne)]
        exact ih hn.2 hr

theorem find?_key_none {l : List FeatRow} (k : String × Val) :
    l.find? (fun r => r.field = k.1 ∧ r.value = k.2) = none ↔ ∀ r ∈ l, r.key ≠ k := by
  rw [List.find?_eq_none]
  simp [key_eq_iff]

theorem eq_of_key {l : List FeatRow} (hn : (l.map (·.key)).Nodup) {a b : FeatRow} (ha : a ∈ l) (hb : b ∈ l)
    (h : a.key = b.key) : a = b := by
  have h1 := (find?_key_iff hn b.key a).2 ⟨ha, h⟩
  have h2 := (find?_key_iff hn b.key b).2 ⟨hb, rfl⟩
  rw [h1] at h2; exact Option.some.inj h2

theorem eq_of_fid {l : List FeatRow} (hn : (l.map (·.fid)).Nodup) {a b : FeatRow} (ha : a ∈ l) (hb : b ∈ l)
    (h : a.fid = b.fid) : a = b := by
  induction l with
  | nil => simp at ha
  | cons c l ih =>
    simp only [List.map_cons, List.nodup_cons] at hn
    rcases List.mem_cons.1 ha with rfl | ha' <;> rcases List.mem_cons.1 hb with rfl | hb'
    · rfl
    · exact absurd (List.mem_map.2 ⟨b, hb', h.symm⟩) hn.1
    · exact absurd (List.mem_map.2 ⟨a, ha', h⟩) hn.1
    · exact ih hn.2 ha' hb'

/-- The rows of one group. -/
def group (segs : List SegRow) (k : String × Val) : List SegRow :=
  segs.filter (fun s => s.field = k.1 ∧ s.value = k.2)

def groupDocs (segs : List SegRow) (k : String × Val) : Bitmap := (group segs k).foldl (fun acc s => acc ∪ s.docs) ∅
def groupCount (segs : List SegRow) (k : String × Val) : Nat := ((group segs k).map (·.docsCount)).sum

theorem foldl_union_mem (l : List SegRow) : ∀ (acc : Bitmap) (d : Nat),
    d ∈ l.foldl (fun acc s => acc ∪ s.docs) acc ↔ d ∈ acc ∨ ∃ s ∈ l, d ∈ s.docs := by
  induction l with
  | nil => intro acc d; simp
  | cons s l ih =>
    intro acc d
    simp only [List.foldl_cons, ih, Finset.mem_union, List.mem_cons, exists_eq_or_imp]
    tauto

theorem mem_groupDocs (segs : List SegRow) (k : String × Val) (d : Nat) :
    d ∈ groupDocs segs k ↔ ∃ s ∈ segs, s.field = k.1 ∧ s.value = k.2 ∧ d ∈ s.docs := by
  simp only [groupDocs, foldl_union_mem, group, List.mem_filter, decide_eq_true_eq]
  simp [and_assoc]

theorem foldl_union_card (l : List SegRow) (hd : l.Pairwise (fun s s' => Disjoint s.docs s'.docs))
    (hc : ∀ s ∈ l, s.docsCount = s.docs.card) : ∀ (acc : Bitmap), (∀ s ∈ l, Disjoint acc s.docs) →
    (l.foldl (fun acc s => acc ∪ s.docs) acc).card = acc.card + (l.map (·.docsCount)).sum := by
  induction l with
  | nil => intro acc _; simp
  | cons s l ih =>
    intro acc ha
    rw [List.pairwise_cons] at hd
    simp only [List.foldl_cons, List.map_cons, List.sum_cons]
    rw [ih hd.2 (fun x hx => hc x (by simp [hx])) _ ?_,
      Finset.card_union_of_disjoint (ha s (by simp)), hc s (by simp), Nat.add_assoc]
    intro x hx
    rw [Finset.disjoint_union_left]
    exact ⟨ha x (by simp [hx]), hd.1 x hx⟩

theorem group_card (segs : List SegRow) (k : String × Val)
    (hd : segs.Pairwise (fun s s' => s.field = s'.field → s.value = s'.value → Disjoint s.docs s'.docs))
    (hc : ∀ s ∈ segs, s.docsCount = s.docs.card) : groupCount segs k = (groupDocs segs k).card := by
  have h : (group segs k).Pairwise (fun s s' => Disjoint s.docs s'.docs) := by
    have h1 := hd.filter (fun s => decide (s.field = k.1 ∧ s.value = k.2))
    refine List.Pairwise.imp_of_mem ?_ h1
    intro a b ha hb h
    have ha := (List.mem_filter.1 ha)
    have hb := (List.mem_filter.1 hb)
    simp only [decide_eq_true_eq] at ha hb
    exact h (ha.2.1.trans hb.2.1.symm) (ha.2.2.trans hb.2.2.symm)
  rw [groupDocs, foldl_union_card _ h (fun s hs => hc s (List.mem_filter.1 hs).1) ∅ (by simp)]
  simp [groupCount]

/-- `replace into inverted_index` for one group. -/
theorem replaceFeature_spec (segs : List SegRow) (k : String × Val) (db : DB)
    (hid : (db.features.map (·.fid)).Nodup) (hk : (db.features.map (·.key)).Nodup) :
    ∃ r0, (db.replaceFeature segs k) = { db with features := (db.replaceFeature segs k).features } ∧
      r0 ∈ (db.replaceFeature segs k).features ∧ r0.key = k ∧ r0.docsCount = groupCount segs k ∧
      r0.docs = groupDocs segs k ∧
      (∀ r, r ∈ (db.replaceFeature segs k).features ↔ r = r0 ∨ (r ∈ db.features ∧ r.key ≠ k)) ∧
      ((db.replaceFeature segs k).features.map (·.fid)).Nodup ∧
      ((db.replaceFeature segs k).features.map (·.key)).Nodup ∧
      ((∃ r ∈ db.features, r.key = k ∧ r.fid = r0.fid) ∨
        ((∀ r ∈ db.features, r.key ≠ k) ∧ ∀ r ∈ db.features, r.fid < r0.fid)) := by
  generalize hfid : (match db.features.find? (fun r => r.field = k.1 ∧ r.value = k.2) with
    | some r => r.fid
    | none => db.nextFid) = fid
  obtain ⟨kept, hkept⟩ : ∃ l, l = db.features.filter
    (fun r => !(decide (r.fid = fid) || decide (r.field = k.1 ∧ r.value = k.2))) := ⟨_, rfl⟩
  have hres : db.replaceFeature segs k =
      { db with features := kept ++ [⟨fid, k.1, k.2, groupCount segs k, groupDocs segs k⟩] } := by
    rw [hkept, ← hfid]; rfl
  -- the filter removes exactly the row with the key
  have hcase : (∃ r ∈ db.features, r.key = k ∧ r.fid = fid) ∨
      ((∀ r ∈ db.features, r.key ≠ k) ∧ ∀ r ∈ db.features, r.fid < fid) := by
    cases hf : db.features.find? (fun r => r.field = k.1 ∧ r.value = k.2) with
    | some r =>
      rw [hf] at hfid
      obtain ⟨h1, h2⟩ := (find?_key_iff hk k r).1 hf
      exact Or.inl ⟨r, h1, h2, hfid⟩
    | none =>
      rw [hf] at hfid
      refine Or.inr ⟨(find?_key_none k).1 hf, ?_⟩
      intro r hr
      rw [← hfid]; exact le_nextFid db r hr
  have hiff : ∀ r ∈ db.features, r.fid = fid → r.key = k := by
    intro r hr e
    rcases hcase with ⟨r1, h1, h2, h3⟩ | ⟨-, h2⟩
    · rw [eq_of_fid hid hr h1 (e.trans h3.symm)]; exact h2
    · have := h2 r hr; omega
  have hsub : kept.Sublist db.features := by rw [hkept]; exact List.filter_sublist
  have hmem : ∀ r, r ∈ kept ↔ r ∈ db.features ∧ r.key ≠ k := by
    intro r
    rw [hkept]
    simp only [List.mem_filter, Bool.not_eq_true', Bool.or_eq_false_iff, decide_eq_false_iff_not, ← key_eq_iff]
    constructor
    · rintro ⟨a, b, c⟩; exact ⟨a, c⟩
    · rintro ⟨a, c⟩; exact ⟨a, fun e => c (hiff r a e), c⟩
  refine ⟨⟨fid, k.1, k.2, groupCount segs k, groupDocs segs k⟩, by rw [hres], by rw [hres]; simp, rfl, rfl, rfl, ?_, ?_,
    ?_, hcase⟩
  · intro r
    rw [hres]
    simp only [List.mem_append, List.mem_singleton, hmem]
    tauto
  · rw [hres]
    simp only [List.map_append, List.map_cons, List.map_nil]
    rw [List.nodup_append]
    refine ⟨hid.sublist (hsub.map _), by simp, ?_⟩
    intro a ha b hb e
    obtain ⟨r, hr, rfl⟩ := List.mem_map.1 ha
    simp only [List.mem_singleton] at hb
    have := (hmem r).1 hr
    exact this.2 (hiff r this.1 (e.trans hb))
  · rw [hres]
    simp only [List.map_append, List.map_cons, List.map_nil]
    rw [List.nodup_append]
    refine ⟨hk.sublist (hsub.map _), by simp, ?_⟩
    intro a ha b hb e
    obtain ⟨r, hr, rfl⟩ := List.mem_map.1 ha
    simp only [List.mem_singleton] at hb
    have := (hmem r).1 hr
    exact this.2 (e.trans hb)

/-- The inverted index after merging the groups `done` into `db`. -/
structure Merged (segs : List SegRow) (done : List (String × Val)) (db d : DB) : Prop where
  rest : d = { db with features := d.features }
  ids : (d.features.map (·.fid)).Nodup
  keys : (d.features.map (·.key)).Nodup
  row : ∀ r ∈ d.features, (r.key ∈ done ∧ r.docsCount = groupCount segs r.key ∧ r.docs = groupDocs segs r.key) ∨
    (r.key ∉ done ∧ r ∈ db.features)
  present : ∀ k ∈ done, ∃ r ∈ d.features, r.key = k
  kept : ∀ r ∈ db.features, ∃ r' ∈ d.features, r'.fid = r.fid ∧ r'.key = r.key
  fresh : ∀ r' ∈ d.features, (∃ r ∈ db.features, r'.fid = r.fid ∧ r'.key = r.key) ∨
    ∀ r ∈ db.features, r.fid < r'.fid ∧ r'.key ≠ r.key

theorem mergeSegments_spec (segs : List SegRow) (db : DB) (hid : (db.features.map (·.fid)).Nodup)
    (hk : (db.features.map (·.key)).Nodup) (ks : List (String × Val)) : Merged segs ks db (db.mergeSegments segs ks) := by
  induction ks using List.reverseRecOn with
  | nil =>
    simp only [mergeSegments, List.foldl_nil]
    exact ⟨rfl, hid, hk, fun r hr => Or.inr ⟨by simp, hr⟩, by simp, fun r hr => ⟨r, hr, rfl, rfl⟩,
      fun r hr => Or.inl ⟨r, hr, rfl, rfl⟩⟩
  | append_singleton ks k ih =>
    have e : db.mergeSegments segs (ks ++ [k]) = (db.mergeSegments segs ks).replaceFeature segs k := by
      simp [mergeSegments]
    rw [e]
    generalize db.mergeSegments segs ks = d at ih ⊢
    obtain ⟨r0, h1, h2, h3, h4, h5, h6, h7, h8, h9⟩ := replaceFeature_spec segs k d ih.ids ih.keys
    generalize d.replaceFeature segs k = d' at *
    constructor
    · rw [h1, ih.rest]
    · exact h7
    · exact h8
    · intro r hr
      rcases (h6 r).1 hr with rfl | ⟨hr', hne⟩
      · left; exact ⟨by simp [h3], by rw [h3]; exact h4, by rw [h3]; exact h5⟩
      · rcases ih.row r hr' with ⟨a, b⟩ | ⟨a, b⟩
        · left; exact ⟨by simp [a], b⟩
        · right; exact ⟨by simp [a, hne], b⟩
    · intro k' hk'
      rcases List.mem_append.1 hk' with hk' | hk'
      · obtain ⟨r, hr, e⟩ := ih.present k' hk'
        by_cases hkk : k' = k
        · subst hkk; exact ⟨r0, h2, h3⟩
        · exact ⟨r, (h6 r).2 (Or.inr ⟨hr, by rw [e]; exact hkk⟩), e⟩
      · simp only [List.mem_singleton] at hk'; subst hk'; exact ⟨r0, h2, h3⟩
    · intro r hr
      obtain ⟨r', hr', e1, e2⟩ := ih.kept r hr
      by_cases hkk : r'.key = k
      · refine ⟨r0, h2, ?_, by rw [h3, ← hkk, e2]⟩
        rcases h9 with ⟨q, hq, q1, q2⟩ | ⟨q, -⟩
        · rw [← q2, eq_of_key ih.keys hq hr' (q1.trans hkk.symm)]; exact e1
        · exact absurd hkk (q r' hr')
      · exact ⟨r', (h6 r').2 (Or.inr ⟨hr', hkk⟩), e1, e2⟩
    · intro r' hr'
      rcases (h6 r').1 hr' with rfl | ⟨hr', hne⟩
      · rcases h9 with ⟨q, hq, q1, q2⟩ | ⟨q, q'⟩
        · rcases ih.fresh q hq with ⟨r, hr, a, b⟩ | h
          · exact Or.inl ⟨r, hr, q2.symm.trans a, by rw [h3, ← q1, b]⟩
          · right
            intro r hr
            rw [← q2, h3, ← q1]; exact h r hr
        · right
          intro r hr
          obtain ⟨r1, hr1, a, b⟩ := ih.kept r hr
          rw [← a, ← b, h3]
          exact ⟨q' r1 hr1, fun e => q r1 hr1 e.symm⟩
      · exact ih.fresh r' hr'

/-! ## Row-wise inserts -/

/-- The id stored for a (field, value). -/
def fidOf (db : DB) (f : String) (v : Val) : Nat :=
  ((db.features.find? (fun r => r.field = f ∧ r.value = v)).map (·.fid)).getD 0

theorem fidOf_eq {db : DB} (hk : (db.features.map (·.key)).Nodup) {r : FeatRow} (hr : r ∈ db.features) :
    fidOf db r.field r.value = r.fid := by
  have this : db.features.find? (fun x => x.field = r.field ∧ x.value = r.value) = some r :=
    (find?_key_iff hk r.key r).2 ⟨hr, rfl⟩
  rw [fidOf, this]; rfl

/-- The row of `position_index` made from a segment. -/
def posRowOf (db : DB) (s : SegRow) : PosRow := ⟨fidOf db s.field s.value, s.firstDoc, s.posCount, s.positions⟩

theorem insertPositions_spec (rows : List SegRow) : ∀ (db : DB), (db.features.map (·.fid)).Nodup →
    (db.features.map (·.key)).Nodup →
    (∀ s ∈ rows, ∃ r ∈ db.features, r.key = (s.field, s.value)) →
    rows.Pairwise (fun s s' => ¬ (s.field = s'.field ∧ s.value = s'.value ∧ s.firstDoc = s'.firstDoc)) →
    (∀ p ∈ db.posIndex, ∀ s ∈ rows, ¬ (p.fid = fidOf db s.field s.value ∧ p.firstDoc = s.firstDoc)) →
    forRows insertPosition rows db = .ok { db with posIndex := db.posIndex ++ rows.map (posRowOf db) } := by
  induction rows with
  | nil => intro db _ _ _ _ _; simp [forRows]
  | cons s rows ih =>
    intro db hid hk hp hd hn
    rw [List.pairwise_cons] at hd
    obtain ⟨r, hr, hrk⟩ := hp s (by simp)
    have hfind := (find?_key_iff hk (s.field, s.value) r).2 ⟨hr, hrk⟩
    simp only at hfind
    have hfid : fidOf db s.field s.value = r.fid := by rw [fidOf, hfind]; rfl
    have hno : db.posIndex.any (fun p => p.fid = r.fid && p.firstDoc = s.firstDoc) = false := by
      rw [List.any_eq_false]
      intro p hp'
      have := hn p hp' s (by simp)
      rw [hfid] at this
      simpa using this
    have hstep : insertPosition s db = .ok { db with posIndex := db.posIndex ++ [⟨r.fid, s.firstDoc, s.posCount, s.positions⟩] } := by
      simp only [insertPosition, hfind, hno]; simp
    simp only [forRows, hstep]
    have hf : ∀ f v, fidOf { db with posIndex := db.posIndex ++ [⟨r.fid, s.firstDoc, s.posCount, s.positions⟩] } f v =
        fidOf db f v := fun f v => rfl
    rw [ih { db with posIndex := db.posIndex ++ [⟨r.fid, s.firstDoc, s.posCount, s.positions⟩] } hid hk
      (fun x hx => hp x (by simp [hx])) hd.2 ?_]
    · have e : posRowOf db s = ⟨r.fid, s.firstDoc, s.posCount, s.positions⟩ := by simp [posRowOf, hfid]
      have e2 : posRowOf { db with posIndex := db.posIndex ++ [⟨r.fid, s.firstDoc, s.posCount, s.positions⟩] } =
        posRowOf db := rfl
      rw [e2]; simp [e]
    · intro p hp' x hx
      simp only [hf]
      rcases List.mem_append.1 hp' with h | h
      · exact hn p h x (by simp [hx])
      · simp only [List.mem_singleton] at h
        subst h
        rintro ⟨a, b⟩
        simp only at a b
        obtain ⟨r2, hr2, hk2⟩ := hp x (by simp [hx])
        have h2 := fidOf_eq hk hr2
        simp only [FeatRow.key, Prod.mk.injEq] at hk2 hrk
        rw [hk2.1, hk2.2] at h2
        have := eq_of_fid hid hr hr2 (a.trans h2)
        subst this
        exact hd.1 x hx ⟨by rw [← hrk.1, hk2.1], by rw [← hrk.2, hk2.2], b⟩

theorem insertPosDocs_spec (rows : List PosDocRow) : ∀ (db : DB),
    rows.Pairwise (fun s s' => ¬ (s.field = s'.field ∧ s.firstDoc = s'.firstDoc)) →
    (∀ p ∈ db.posDocMap, ∀ s ∈ rows, ¬ (p.field = s.field ∧ p.firstDoc = s.firstDoc)) →
    forRows insertPosDoc rows db = .ok { db with posDocMap := db.posDocMap ++ rows } := by
  induction rows with
  | nil => intro db _ _; simp [forRows]
  | cons s rows ih =>
    intro db hd hn
    rw [List.pairwise_cons] at hd
    have hno : db.posDocMap.any (fun p => p.field = s.field && p.firstDoc = s.firstDoc) = false := by
      rw [List.any_eq_false]
      intro p hp'
      have := hn p hp' s (by simp)
      simpa using this
    have hstep : insertPosDoc s db = .ok { db with posDocMap := db.posDocMap ++ [s] } := by
      simp only [insertPosDoc, hno]; simp
    simp only [forRows, hstep]
    rw [ih { db with posDocMap := db.posDocMap ++ [s] } hd.2 ?_]
    · simp
    · intro p hp' x hx
      rcases List.mem_append.1 hp' with h | h
      · exact hn p h x (by simp [hx])
      · simp only [List.mem_singleton] at h
        subst h
        exact hd.1 x hx

end Hyperreal
