import Verif.Lemmas.Tiles

namespace Hyperreal
open Spec Bitmap DB

theorem mapM_eq_map {α β : Type} (f : α → Except Err β) (g : α → β) : ∀ l : List α, (∀ a ∈ l, f a = .ok (g a)) →
    l.mapM f = .ok (l.map g)
  | [], _ => rfl
  | a :: l, h => by
    rw [List.mapM_cons, h a (by simp), mapM_eq_map f g l (fun x hx => h x (by simp [hx]))]; rfl

theorem flatMap_single {α β : Type} {l : List α} (hn : l.Nodup) {t : α} (ht : t ∈ l) {g : α → List β}
    (h : ∀ x ∈ l, x ≠ t → g x = []) : l.flatMap g = g t := by
  induction l with
  | nil => simp at ht
  | cons a l ih =>
    rw [List.nodup_cons] at hn
    rw [List.flatMap_cons]
    rcases List.mem_cons.1 ht with rfl | ht
    · have : l.flatMap g = [] := by
        rw [List.flatMap_eq_nil_iff]
        intro x hx
        exact h x (by simp [hx]) (by rintro rfl; exact hn.1 hx)
      rw [this, List.append_nil]
    · rw [h a (by simp) (by rintro rfl; exact hn.1 ht), ih hn.2 ht (fun x hx => h x (by simp [hx])), List.nil_append]

/-! ## Clauses by field -/

section
variable {db : DB}

/-- The ids of the features of a clause in a field. -/
def IdsOf (db : DB) (field : String) (c : List FeatureRef) (q : List Nat) : Prop :=
  ∀ f, f ∈ q ↔ ∃ ref ∈ c, ∃ r ∈ db.features, Refers ref r ∧ r.field = field ∧ r.fid = f

theorem find?_key (hw : Wellformed db) {r : FeatRow} (h : r ∈ db.features) :
    db.features.find? (fun x => x.field = r.field ∧ x.value = r.value) = some r :=
  nodup_find (fun r : FeatRow => (r.field, r.value)) db.features hw.featureKeys h (by intro x; simp)

theorem addIds_spec (acc : Dict String (List Nat)) (field : String) (f : Nat) :
    let acc' := acc.set field (if f ∈ (acc.get? field).getD [] then (acc.get? field).getD [] else (acc.get? field).getD [] ++ [f])
    (∀ fd g, g ∈ (Dict.get? acc' fd).getD [] ↔ g ∈ (acc.get? fd).getD [] ∨ (fd = field ∧ g = f)) ∧
    (∀ fd, fd ∈ acc'.keys ↔ fd = field ∨ fd ∈ acc.keys) ∧ (acc.keys.Nodup → acc'.keys.Nodup) := by
  refine ⟨?_, fun fd => Dict.mem_keys_set _ _ _ _, fun h => Dict.nodup_set h _ _⟩
  intro fd g
  rw [Dict.get?_set]
  split
  · rename_i h; subst h
    simp only [Option.getD_some, true_and]
    split
    · rename_i h
      constructor
      · exact Or.inl
      · rintro (h' | rfl)
        · exact h'
        · exact h
    · simp
  · rename_i h
    constructor
    · exact Or.inl
    · rintro (h' | ⟨rfl, -⟩)
      · exact h'
      · exact absurd rfl h

theorem addToClause_spec (hw : Wellformed db) (acc : Dict String (List Nat)) (ref : FeatureRef)
    (hk : (∃ a b, ref = .range a b) ∨ ∃ r ∈ db.features, Refers ref r) :
    ∃ acc', addToClause db acc ref = .ok acc' ∧
      (∀ fd g, g ∈ (Dict.get? acc' fd).getD [] ↔ g ∈ (acc.get? fd).getD [] ∨
        ∃ r ∈ db.features, Refers ref r ∧ r.field = fd ∧ r.fid = g) ∧
      (∀ fd, fd ∈ acc'.keys ↔ fd ∈ acc.keys ∨ ∃ r ∈ db.features, Refers ref r ∧ r.field = fd) ∧
      (acc.keys.Nodup → acc'.keys.Nodup) := by
  cases ref with
  | range a b => exact ⟨acc, rfl, by simp [Refers], by simp [Refers], id⟩
  | id f =>
    rcases hk with ⟨a, b, h⟩ | ⟨r, hr, hrf⟩
    · cases h
    have hrf : f = r.fid := hrf
    subst hrf
    have e : lookupFeature db r.fid = .ok (r.field, r.value) := by
      rw [lookupFeature, feature?_of_mem hw.featureIds hr]
    have huniq : ∀ r' ∈ db.features, Refers (.id r.fid) r' → r' = r := by
      intro r' h1 h2; exact feature_unique hw h1 hr (Eq.symm h2)
    obtain ⟨h1, h2, h3⟩ := addIds_spec acc r.field r.fid
    refine ⟨_, by show (lookupFeature db r.fid >>= fun fv => _) = _; rw [e]; rfl, ?_, ?_, h3⟩
    · intro fd g
      rw [h1]
      refine or_congr Iff.rfl ⟨?_, ?_⟩
      · rintro ⟨rfl, rfl⟩; exact ⟨r, hr, rfl, rfl, rfl⟩
      · rintro ⟨r', a, b, c, d⟩
        rw [huniq r' a b] at c d
        exact ⟨c.symm, d.symm⟩
    · intro fd
      rw [h2, or_comm]
      refine or_congr Iff.rfl ⟨?_, ?_⟩
      · rintro rfl; exact ⟨r, hr, rfl, rfl⟩
      · rintro ⟨r', a, b, c⟩
        rw [huniq r' a b] at c
        exact c.symm
  | key fd0 v0 =>
    rcases hk with ⟨a, b, h⟩ | ⟨r, hr, e1, e2⟩
    · cases h
    subst e1; subst e2
    have e : lookupFeatureId db r.field r.value = .ok r.fid := by
      rw [lookupFeatureId, find?_key hw hr]
    have huniq : ∀ r' ∈ db.features, Refers (.key r.field r.value) r' → r' = r := by
      rintro r' h1 ⟨h2, h3⟩; exact key_unique hw h1 hr h2.symm h3.symm
    obtain ⟨h1, h2, h3⟩ := addIds_spec acc r.field r.fid
    refine ⟨_, by show (lookupFeatureId db r.field r.value >>= fun fv => _) = _; rw [e]; rfl, ?_, ?_, h3⟩
    · intro fd g
      rw [h1]
      refine or_congr Iff.rfl ⟨?_, ?_⟩
      · rintro ⟨rfl, rfl⟩; exact ⟨r, hr, ⟨rfl, rfl⟩, rfl, rfl⟩
      · rintro ⟨r', a, b, c, d⟩
        rw [huniq r' a b] at c d
        exact ⟨c.symm, d.symm⟩
    · intro fd
      rw [h2, or_comm]
      refine or_congr Iff.rfl ⟨?_, ?_⟩
      · rintro rfl; exact ⟨r, hr, ⟨rfl, rfl⟩, rfl⟩
      · rintro ⟨r', a, b, c⟩
        rw [huniq r' a b] at c
        exact c.symm

theorem clause_spec (hw : Wellformed db) (c : List FeatureRef) : ∀ (acc : Dict String (List Nat)), Known db c →
    acc.keys.Nodup → ∃ cl, c.foldlM (addToClause db) acc = .ok cl ∧
      (∀ fd g, g ∈ (Dict.get? cl fd).getD [] ↔ g ∈ (acc.get? fd).getD [] ∨
        ∃ ref ∈ c, ∃ r ∈ db.features, Refers ref r ∧ r.field = fd ∧ r.fid = g) ∧
      (∀ fd, fd ∈ cl.keys ↔ fd ∈ acc.keys ∨ ∃ ref ∈ c, ∃ r ∈ db.features, Refers ref r ∧ r.field = fd) ∧ cl.keys.Nodup := by
  induction c with
  | nil => intro acc _ h; exact ⟨acc, rfl, by simp, by simp, h⟩
  | cons ref c ih =>
    intro acc hk hn
    obtain ⟨acc', h1, h2, h3, h4⟩ := addToClause_spec hw acc ref (hk ref (by simp))
    obtain ⟨cl, g1, g2, g3, g4⟩ := ih acc' (fun r hr => hk r (by simp [hr])) (h4 hn)
    refine ⟨cl, ?_, ?_, ?_, g4⟩
    · rw [List.foldlM_cons, h1]; exact g1
    · intro fd g; rw [g2, h2]; simp [or_assoc]
    · intro fd; rw [g3, h3]; simp [or_assoc]

theorem concerns_iff (field : String) (c : List FeatureRef) :
    Concerns db field c ↔ ∃ ref ∈ c, ∃ r ∈ db.features, Refers ref r ∧ r.field = field := by
  constructor
  · rintro ⟨ref, h1, v, r, h2, h3, h4, -⟩; exact ⟨ref, h1, r, h2, h3, h4⟩
  · rintro ⟨ref, h1, r, h2, h3, h4⟩; exact ⟨ref, h1, r.value, r, h2, h3, h4, rfl⟩

/-- The part of a clause in a field. -/
theorem get?_addClause (pos : List String) (cl : Dict String (List Nat)) (hn : cl.keys.Nodup) (acc : Dict String (List (List Nat)))
    (field : String) : (Dict.get? (addClause pos acc cl) field).getD [] = (Dict.get? acc field).getD [] ++
      if field ∈ pos then (Dict.get? cl field).toList else [] := by
  induction cl generalizing acc with
  | nil => simp [addClause]
  | cons e cl ih =>
    rw [Dict.keys, List.map_cons, List.nodup_cons] at hn
    have e1 : addClause pos acc (e :: cl) = addClause pos (if e.1 ∈ pos then acc.extend e.1 [e.2] else acc) cl := rfl
    rw [e1, ih hn.2, Dict.get?_cons]
    by_cases hf : e.1 = field
    · subst hf
      have : Dict.get? cl e.1 = none := (Dict.get?_eq_none _ _).2 hn.1
      rw [this, if_pos rfl]
      by_cases hp : e.1 ∈ pos
      · simp only [if_pos hp]; rw [get?_extend]; simp
      · simp [hp]
    · rw [if_neg hf]
      congr 1
      split
      · rw [get?_extend, if_neg (fun h => hf h.symm), List.append_nil]
      · rfl

theorem keys_addClause (pos : List String) (cl : Dict String (List Nat)) (acc : Dict String (List (List Nat))) :
    (acc.keys.Nodup → (addClause pos acc cl).keys.Nodup) ∧
    (∀ fd, fd ∈ (addClause pos acc cl).keys ↔ fd ∈ acc.keys ∨ (fd ∈ pos ∧ fd ∈ cl.keys)) := by
  induction cl generalizing acc with
  | nil => simp [addClause, Dict.keys]
  | cons e cl ih =>
    have e1 : addClause pos acc (e :: cl) = addClause pos (if e.1 ∈ pos then acc.extend e.1 [e.2] else acc) cl := rfl
    rw [e1]
    obtain ⟨i1, i2⟩ := ih (if e.1 ∈ pos then acc.extend e.1 [e.2] else acc)
    constructor
    · intro hn
      apply i1
      split
      · exact nodup_extend hn _ _
      · exact hn
    · intro fd
      rw [i2]
      have hk : fd ∈ Dict.keys (e :: cl) ↔ fd = e.1 ∨ fd ∈ Dict.keys cl := by simp [Dict.keys]
      rw [hk]
      split
      · rename_i hp
        rw [keys_extend]
        constructor
        · rintro ((rfl | h) | h)
          · exact Or.inr ⟨hp, Or.inl rfl⟩
          · exact Or.inl h
          · exact Or.inr ⟨h.1, Or.inr h.2⟩
        · rintro (h | ⟨h1, rfl | h2⟩)
          · exact Or.inl (Or.inr h)
          · exact Or.inl (Or.inl rfl)
          · exact Or.inr ⟨h1, h2⟩
      · rename_i hp
        constructor
        · rintro (h | h)
          · exact Or.inl h
          · exact Or.inr ⟨h.1, Or.inr h.2⟩
        · rintro (h | ⟨h1, rfl | h2⟩)
          · exact Or.inl h
          · exact absurd h1 hp
          · exact Or.inr ⟨h1, h2⟩

theorem fieldClauses_spec (hw : Wellformed db) (clauses : List (List FeatureRef)) (hk : ∀ c ∈ clauses, Known db c) :
    ∃ qs, fieldClauses db clauses = .ok qs ∧ qs.keys.Nodup ∧
      (∀ fd, fd ∈ qs.keys ↔ fd ∈ positionalFields db ∧ ∃ c ∈ clauses, Concerns db fd c) ∧
      ∀ e ∈ qs, (∀ q ∈ e.2, ∃ c ∈ clauses, Concerns db e.1 c ∧ IdsOf db e.1 c q) ∧
        ∀ c ∈ clauses, Concerns db e.1 c → ∃ q ∈ e.2, IdsOf db e.1 c q := by
  have h0 : ∀ c ∈ clauses, ∃ cl, c.foldlM (addToClause db) [] = .ok cl ∧ cl.keys.Nodup ∧
      (∀ fd, IdsOf db fd c ((Dict.get? cl fd).getD [])) ∧ (∀ fd, fd ∈ cl.keys ↔ Concerns db fd c) := by
    intro c hc
    obtain ⟨cl, h1, h2, h3, h4⟩ := clause_spec hw c [] (hk c hc) (by simp [Dict.keys])
    refine ⟨cl, h1, h4, ?_, ?_⟩
    · intro fd g; rw [h2]; simp
    · intro fd; rw [h3, concerns_iff]; simp [Dict.keys]
  choose! F hF using h0
  have hmap := mapM_eq_map (fun c => c.foldlM (addToClause db) []) F clauses (fun c hc => (hF c hc).1)
  have hfold : ∀ (l : List (List FeatureRef)), (∀ c ∈ l, c ∈ clauses) → ∀ (acc : Dict String (List (List Nat))), acc.keys.Nodup →
      ((l.map F).foldl (addClause (positionalFields db)) acc).keys.Nodup ∧
      (∀ fd, fd ∈ ((l.map F).foldl (addClause (positionalFields db)) acc).keys ↔ fd ∈ acc.keys ∨
        (fd ∈ positionalFields db ∧ ∃ c ∈ l, Concerns db fd c)) ∧
      (∀ fd, (Dict.get? ((l.map F).foldl (addClause (positionalFields db)) acc) fd).getD [] = (acc.get? fd).getD [] ++
        l.flatMap (fun c => if fd ∈ positionalFields db then (Dict.get? (F c) fd).toList else [])) := by
    intro l
    induction l with
    | nil => intro _ acc hn; exact ⟨hn, by simp, by simp⟩
    | cons c l ih =>
      intro hl acc hn
      obtain ⟨-, g2, g3, g4⟩ := hF c (hl c (by simp))
      obtain ⟨k1, k2⟩ := keys_addClause (positionalFields db) (F c) acc
      obtain ⟨i1, i2, i3⟩ := ih (fun x hx => hl x (by simp [hx])) (addClause (positionalFields db) acc (F c)) (k1 hn)
      refine ⟨i1, ?_, ?_⟩
      · intro fd
        rw [List.map_cons, List.foldl_cons, i2, k2, g4]
        constructor
        · rintro ((h | h) | ⟨h, c', h', h''⟩)
          · exact Or.inl h
          · exact Or.inr ⟨h.1, c, by simp, h.2⟩
          · exact Or.inr ⟨h, c', by simp [h'], h''⟩
        · rintro (h | ⟨h, c', h', h''⟩)
          · exact Or.inl (Or.inl h)
          · rcases List.mem_cons.1 h' with rfl | h'
            · exact Or.inl (Or.inr ⟨h, h''⟩)
            · exact Or.inr ⟨h, c', h', h''⟩
      · intro fd
        rw [List.map_cons, List.foldl_cons, i3, get?_addClause _ _ g2, List.flatMap_cons, List.append_assoc]
  obtain ⟨a1, a2, a3⟩ := hfold clauses (fun c h => h) [] (by simp [Dict.keys])
  refine ⟨(clauses.map F).foldl (addClause (positionalFields db)) [], ?_, a1, ?_, ?_⟩
  · rw [fieldClauses, hmap]; rfl
  · intro fd; rw [a2]; simp [Dict.keys]
  · intro e he
    have hget := Dict.get?_of_mem a1 (k := e.1) (v := e.2) he
    have hpos : e.1 ∈ positionalFields db := by
      have := (a2 e.1).1 (List.mem_map.2 ⟨e, he, rfl⟩)
      simp [Dict.keys] at this
      exact this.1
    have h3 := a3 e.1
    rw [hget] at h3
    simp only [Option.getD_some, Dict.get?_nil, Option.getD_none, List.nil_append, if_pos hpos] at h3
    rw [h3]
    constructor
    · intro q hq
      obtain ⟨c, hc, hq⟩ := List.mem_flatMap.1 hq
      have := (hF c hc).2.2.1 e.1
      rw [Option.mem_toList] at hq
      have hq : Dict.get? (F c) e.1 = some q := hq
      refine ⟨c, hc, ((hF c hc).2.2.2 e.1).1 ((Dict.get?_isSome _ _).1 ⟨q, hq⟩), ?_⟩
      rw [hq] at this
      exact this
    · intro c hc hcon
      obtain ⟨q, hq⟩ := (Dict.get?_isSome _ _).2 (((hF c hc).2.2.2 e.1).2 hcon)
      refine ⟨q, List.mem_flatMap.2 ⟨c, hc, by rw [Option.mem_toList]; exact hq⟩, ?_⟩
      have := (hF c hc).2.2.1 e.1
      rw [hq] at this
      exact this

end

/-! ## From positions to offsets -/

section
variable {corpus : Corpus} {content : Val → Features} {db : DB}

/-- The positions of a clause in a partition are the matches in its documents. -/
theorem clausePositions_iff (hP : IsPositionIndexOf corpus content db) (hw : Wellformed db) (hs : Serves corpus content)
    {m : PosDocRow} (hm : m ∈ db.posDocMap) {c : List FeatureRef} {q : List Nat} (hq : IdsOf db m.field c q) (p : Nat) :
    p ∈ unionPositions db m.firstDoc q ↔
      ∃ i d lo vs o, Tile corpus content m i d lo vs ∧ p = lo + o ∧ o < vs.length ∧ MatchAt corpus content db m.field c d o := by
  rw [mem_unionPositions]
  constructor
  · rintro ⟨f, hf, hp⟩
    obtain ⟨ref, h1, r, h2, h3, h4, rfl⟩ := (hq f).1 hf
    obtain ⟨i, d, lo, vs, o, t, e, ho⟩ := (partitionPositions_iff hP hw hs hm h2 h4 p).1 hp
    exact ⟨i, d, lo, vs, o, t, e, (List.getElem?_eq_some_iff.1 ho).1, ref, h1, r.value, ⟨r, h2, h3, h4, rfl⟩, vs, t.tokens, ho⟩
  · rintro ⟨i, d, lo, vs, o, t, e, -, ref, h1, v, ⟨r, h2, h3, h4, rfl⟩, vs', h5, h6⟩
    have := hasTokens_unique hs t.tokens h5
    subst this
    exact ⟨r.fid, (hq _).2 ⟨ref, h1, r, h2, h3, h4, rfl⟩, (partitionPositions_iff hP hw hs hm h2 h4 p).2 ⟨i, d, lo, vs, o, t, e, h6⟩⟩

theorem tile_unique (hP : IsPositionIndexOf corpus content db) (hs : Serves corpus content) {m : PosDocRow}
    {i i' d d' lo lo' o o' : Nat} {vs vs' : List (Option Val)} (t : Tile corpus content m i d lo vs)
    (t' : Tile corpus content m i' d' lo' vs') (ho : o < vs.length) (ho' : o' < vs'.length) (e : lo + o = lo' + o') :
    i = i' ∧ d = d' ∧ lo = lo' ∧ vs = vs' ∧ o = o' := by
  have h1 := t.rank ho
  have h2 := t'.rank ho'
  rw [e, h2] at h1
  have hi : i = i' := by omega
  subst hi
  have hd : d = d' := by have := t.doc; rw [t'.doc] at this; exact (Option.some.inj this).symm
  have hl : lo = lo' := by have := t.atLo; rw [t'.atLo] at this; exact (Option.some.inj this).symm
  subst hd; subst hl
  exact ⟨rfl, rfl, rfl, hasTokens_unique hs t.tokens t'.tokens, by omega⟩

/-- What the window of a position holds: offsets of the same document at most `w` away, or the start of the next one. -/
theorem reach_iff {m : PosDocRow} {i d lo : Nat} {vs : List (Option Val)} (t : Tile corpus content m i d lo vs)
    {o w p : Nat} (ho : o < vs.length) :
    Reach m.bounds w (lo + o) p ↔ (∃ o', o' < vs.length ∧ p = lo + o' ∧ Close w o o') ∨ (p = lo + vs.length ∧ vs.length ≤ o + w) := by
  have hin := t.inside ho
  have h1 := hin.lo.2
  have h2 := hin.next.2
  rw [t.loAt ho] at h1
  rw [t.nextAt ho] at h2
  constructor
  · rintro ⟨ds, ns, g1, g2, g3, g4⟩
    rw [g1.unique h1] at g3
    rw [g2.unique h2] at g4
    by_cases hp : p = lo + vs.length
    · right; exact ⟨hp, by omega⟩
    · left; exact ⟨p - lo, by omega, by omega, by constructor <;> omega⟩
  · rintro (⟨o', a, rfl, b⟩ | ⟨rfl, b⟩)
    · obtain ⟨b1, b2⟩ := b
      exact ⟨_, _, h1, h2, by omega, by omega⟩
    · exact ⟨_, _, h1, h2, by omega, by omega⟩

/-- A position that is the start of the document after the one of a tile. -/
theorem leak_tile {m : PosDocRow} (hm : m ∈ db.posDocMap) {i i' d d' lo lo' o : Nat} {vs vs' : List (Option Val)}
    (t : Tile corpus content m i d lo vs) (t' : Tile corpus content m i' d' lo' vs') (ho : o < vs.length)
    (e : lo + o = lo' + vs'.length) : o = 0 ∧ Follows db m.field d' d := by
  have hb : lo' + vs'.length ∈ m.bounds := mem_elems.1 (List.mem_of_getElem? t'.atHi)
  have hin := t.inside ho
  have h1 := hin.lo.2
  rw [t.loAt ho] at h1
  have ho0 : o = 0 := by
    have := h1.2.2 _ hb (by omega)
    omega
  refine ⟨ho0, ?_⟩
  subst ho0
  have hii : i = i' + 1 := by
    obtain ⟨g1, e1⟩ := List.getElem?_eq_some_iff.1 t.atLo
    obtain ⟨g2, e2⟩ := List.getElem?_eq_some_iff.1 t'.atHi
    exact (elems_nodup _).getElem_inj_iff.1 (by rw [e1, e2]; omega)
  subst hii
  exact ⟨m, hm, rfl, i', t'.doc, t.doc⟩

/-- One partition: matched offsets and passages of every document. -/
theorem scorePartition_local (hP : IsPositionIndexOf corpus content db) (hw : Wellformed db) (hs : Serves corpus content)
    {m : PosDocRow} (hm : m ∈ db.posDocMap) (arrange : List (Nat × List Nat) → List (Nat × List Nat))
    (ha : ∀ l, (arrange l).Perm l) (clauses : List (List FeatureRef)) (qs : List (List Nat)) (w : Nat) (hne : qs ≠ [])
    (h1 : ∀ q ∈ qs, ∃ c ∈ clauses, Concerns db m.field c ∧ IdsOf db m.field c q)
    (h2 : ∀ c ∈ clauses, Concerns db m.field c → ∃ q ∈ qs, IdsOf db m.field c q) :
    ∃ scores, scorePartition arrange db m.field m.firstDoc qs w = .ok scores ∧ scores.keys.Nodup ∧
      (∀ d, ∀ p ∈ (Dict.get? scores d).getD [], p.field = m.field ∧ d ∈ m.docs) ∧
      ∀ d ∈ m.docs, ∃ M, Matched corpus content db clauses w m.field d M ∧ AreRuns M w ((Dict.get? scores d).getD []) := by
  have hl := (hP.tiles m hm).1
  have hin : ∀ q ∈ qs, ∀ p ∈ unionPositions db m.firstDoc q, Inside m.bounds p := by
    intro q hq p hp
    obtain ⟨c, hc, -, hid⟩ := h1 q hq
    obtain ⟨i, d, lo, vs, o, t, rfl, ho, -⟩ := (clausePositions_iff hP hw hs hm hid p).1 hp
    exact t.inside ho
  obtain ⟨S, e1, e2, e3, e4, e5⟩ := scorePartition_spec (w := w) (header_eq hP hm) hl arrange ha qs hne hin
  refine ⟨_, e1, ?_, ?_, ?_⟩
  · have : ∀ (l : List (Nat × Nat)) (acc : Dict Nat (List Passage)), acc.keys.Nodup → (l.foldl (fun acc e =>
        Dict.extend acc (docAt m.docs m.bounds e.1) [passageAt m.field m.bounds S e]) acc).keys.Nodup := by
      intro l
      induction l with
      | nil => intro acc h; exact h
      | cons a l ih => intro acc h; exact ih _ (nodup_extend h _ _)
    exact this _ [] (by simp [Dict.keys])
  · intro d p hp
    rw [get?_foldl_extend] at hp
    simp only [Dict.get?_nil, Option.getD_none, List.nil_append, List.mem_flatMap] at hp
    obtain ⟨e, he, hp⟩ := hp
    split at hp
    · rename_i hd
      simp only [List.mem_singleton] at hp
      subst hp
      refine ⟨rfl, ?_⟩
      have := (e2 e.1 (runsOf_ends he).2.2.1).doc hl
      rw [hd]
      exact mem_elems.1 (List.mem_of_getElem? this)
    · simp at hp
  · intro d hd
    rw [← mem_elems] at hd
    obtain ⟨i, hi⟩ := List.getElem?_of_mem hd
    obtain ⟨lo, vs, t⟩ := tile_of_doc hP hm hi
    refine ⟨(Finset.range vs.length).filter (fun o => lo + o ∈ S), ⟨?_, ?_, ?_⟩, ?_⟩
    · intro o ho
      simp only [Finset.mem_filter, Finset.mem_range] at ho
      obtain ⟨q, hq, hpq⟩ := e3 _ ho.2
      obtain ⟨c, hc, -, hid⟩ := h1 q hq
      obtain ⟨i', d', lo', vs', o', t', e, ho', hma⟩ := (clausePositions_iff hP hw hs hm hid _).1 hpq
      obtain ⟨rfl, rfl, rfl, rfl, rfl⟩ := tile_unique hP hs t t' ho.1 ho' e
      exact ⟨c, hc, hma⟩
    · intro o ho c hc hcon
      simp only [Finset.mem_filter, Finset.mem_range] at ho
      obtain ⟨q, hq, hid⟩ := h2 c hc hcon
      obtain ⟨x, hx, hr⟩ := e4 _ ho.2 q hq
      obtain ⟨i', d', lo', vs', o', t', rfl, ho', hma⟩ := (clausePositions_iff hP hw hs hm hid _).1 hx
      rcases (reach_iff t' ho').1 hr with ⟨o2, ho2, e, hclose⟩ | ⟨e, hle⟩
      · obtain ⟨rfl, rfl, rfl, rfl, rfl⟩ := tile_unique hP hs t t' ho.1 ho2 e
        exact Or.inl ⟨o', hma, hclose.2, hclose.1⟩
      · obtain ⟨h0, hlt⟩ := leak_tile hm t t' ho.1 e
        exact Or.inr ⟨h0, d', o', vs', hlt, t'.tokens, hma, ho', hle⟩
    · intro T hT1 hT2 hT3
      have hlen : ∀ o ∈ T, o < vs.length := by
        intro o ho
        obtain ⟨c, -, ref, -, v, -, vs', h3, h4⟩ := hT1 o ho
        rw [hasTokens_unique hs t.tokens h3]
        exact (List.getElem?_eq_some_iff.1 h4).1
      have hsub : T.image (lo + ·) ⊆ S := by
        apply e5
        · intro p hp p' hp'
          obtain ⟨o, ho, rfl⟩ := Finset.mem_image.1 hp
          obtain ⟨o', ho', rfl⟩ := Finset.mem_image.1 hp'
          exact (reach_iff t (hlen o ho)).2 (Or.inl ⟨o', hlen o' ho', rfl, hT3 o ho o' ho'⟩)
        · intro q hq
          obtain ⟨c, hc, hcon, hid⟩ := h1 q hq
          obtain ⟨o, ho, hma⟩ := hT2 c hc hcon
          exact ⟨lo + o, Finset.mem_image.2 ⟨o, ho, rfl⟩, (clausePositions_iff hP hw hs hm hid _).2
            ⟨i, d, lo, vs, o, t, rfl, hlen o ho, hma⟩⟩
        · intro p hp
          obtain ⟨o, ho, rfl⟩ := Finset.mem_image.1 hp
          obtain ⟨c, hc, hma⟩ := hT1 o ho
          have hcon : Concerns db m.field c := by
            obtain ⟨ref, h3, v, h4, -⟩ := hma; exact ⟨ref, h3, v, h4⟩
          obtain ⟨q, hq, hid⟩ := h2 c hc hcon
          exact ⟨q, hq, (clausePositions_iff hP hw hs hm hid _).2 ⟨i, d, lo, vs, o, t, rfl, hlen o ho, hma⟩⟩
      intro o ho
      simp only [Finset.mem_filter, Finset.mem_range]
      exact ⟨hlen o ho, hsub (Finset.mem_image.2 ⟨o, ho, rfl⟩)⟩
    · rw [get?_foldl_extend]
      simp only [Dict.get?_nil, Option.getD_none, List.nil_append]
      exact runs_local t hl m.field S w e2

/-! ## All partitions -/

theorem flatMap_keys {κ β : Type} [DecidableEq κ] (x : κ) (d : Dict κ (List β)) (hn : d.keys.Nodup) :
    d.flatMap (fun e => if x = e.1 then e.2 else []) = (Dict.get? d x).getD [] := by
  cases hg : Dict.get? d x with
  | none =>
    have := (Dict.get?_eq_none _ _).1 hg
    rw [Option.getD_none, List.flatMap_eq_nil_iff]
    intro e he
    rw [if_neg]
    rintro rfl
    exact this (List.mem_map.2 ⟨e, he, rfl⟩)
  | some v =>
    have hm := Dict.mem_of_get? hg
    rw [flatMap_single (List.Nodup.of_map _ hn) hm, if_pos rfl]; · rfl
    intro e he hne
    rw [if_neg]
    rintro rfl
    apply hne
    have := Dict.get?_of_mem hn (k := e.1) (v := e.2) he
    rw [hg, Option.some.injEq] at this
    rw [this]

theorem get?_merge {κ β : Type} [DecidableEq κ] (x : κ) (l : List (Dict κ (List β))) :
    ∀ acc : Dict κ (List β), (∀ d ∈ l, d.keys.Nodup) →
    (Dict.get? (l.foldl (fun acc scores => scores.foldl (fun acc e => Dict.extend acc e.1 e.2) acc) acc) x).getD [] =
      (Dict.get? acc x).getD [] ++ l.flatMap (fun d => (Dict.get? d x).getD []) := by
  induction l with
  | nil => intro acc _; simp
  | cons d l ih =>
    intro acc h
    rw [List.foldl_cons, ih _ (fun y hy => h y (by simp [hy])), get?_foldl_extend, flatMap_keys x d (h d (by simp)),
      List.flatMap_cons, List.append_assoc]

theorem scorePassages_spec (hP : IsPositionIndexOf corpus content db) (hw : Wellformed db) (hs : Serves corpus content)
    (arrange : List (Nat × List Nat) → List (Nat × List Nat)) (ha : ∀ l, (arrange l).Perm l)
    (order : List (String × Nat × List (List Nat)) → List (String × Nat × List (List Nat))) (ho : ∀ l, (order l).Perm l)
    (clauses : List (List FeatureRef)) (hk : ∀ c ∈ clauses, Known db c) (w : Nat) :
    ∃ result, scorePassages arrange order db clauses w = .ok result ∧ ∀ d field, ∃ M,
      Matched corpus content db clauses w field d M ∧
      AreRuns M w (passagesIn result field d) := by
  obtain ⟨qs, hq1, hq2, hq3, hq4⟩ := fieldClauses_spec hw clauses hk
  set tasks := qs.flatMap (fun e => (fieldPartitions db e.1).map (fun first => (e.1, first, e.2))) with htasks
  have hmem : ∀ t, t ∈ tasks ↔ (t.1, t.2.2) ∈ qs ∧ ∃ m ∈ db.posDocMap, m.field = t.1 ∧ m.firstDoc = t.2.1 := by
    intro t
    rw [htasks, List.mem_flatMap]
    constructor
    · rintro ⟨e, he, h⟩
      obtain ⟨first, hf, rfl⟩ := List.mem_map.1 h
      exact ⟨he, (mem_fieldPartitions _ _).1 hf⟩
    · rintro ⟨h1, h2⟩
      exact ⟨_, h1, List.mem_map.2 ⟨t.2.1, (mem_fieldPartitions _ _).2 h2, rfl⟩⟩
  have hnod : tasks.Nodup := by
    rw [htasks, List.nodup_flatMap]
    constructor
    · intro e _
      exact (fieldPartitions_nodup hP e.1).map (fun a b h => by simpa using h)
    · refine (List.pairwise_map.1 hq2).imp ?_
      intro a b hne x hx hx'
      obtain ⟨_, _, rfl⟩ := List.mem_map.1 hx
      obtain ⟨_, _, e⟩ := List.mem_map.1 hx'
      exact hne (Prod.ext_iff.1 e).1.symm
  have h0 : ∀ t ∈ order tasks, ∃ scores, scorePartition arrange db t.1 t.2.1 t.2.2 w = .ok scores ∧ scores.keys.Nodup ∧
      ∃ m ∈ db.posDocMap, m.field = t.1 ∧ m.firstDoc = t.2.1 ∧
      (∀ d, ∀ p ∈ (Dict.get? scores d).getD [], p.field = m.field ∧ d ∈ m.docs) ∧
      ∀ d ∈ m.docs, ∃ M, Matched corpus content db clauses w m.field d M ∧ AreRuns M w ((Dict.get? scores d).getD []) := by
    intro t ht
    obtain ⟨he, m, hm, e1, e2⟩ := (hmem t).1 ((ho tasks).mem_iff.1 ht)
    obtain ⟨g1, g2⟩ := hq4 _ he
    simp only at g1 g2
    rw [← e1] at g1 g2
    have hne : t.2.2 ≠ [] := by
      obtain ⟨-, c, hc, hcon⟩ := (hq3 t.1).1 (List.mem_map.2 ⟨_, he, rfl⟩)
      rw [← e1] at hcon
      obtain ⟨q, hq, -⟩ := g2 c hc hcon
      exact List.ne_nil_of_mem hq
    obtain ⟨scores, s1, s2, s3, s4⟩ := scorePartition_local hP hw hs hm arrange ha clauses t.2.2 w hne g1 g2
    refine ⟨scores, ?_, s2, m, hm, e1, e2, s3, s4⟩
    rw [← e1, ← e2]; exact s1
  choose! S hS using h0
  have hmap := mapM_eq_map (fun t : String × Nat × List (List Nat) => scorePartition arrange db t.1 t.2.1 t.2.2 w) S
    (order tasks) (fun t ht => (hS t ht).1)
  refine ⟨_, by rw [scorePassages, hq1]; show (((order tasks).mapM (fun t => scorePartition arrange db t.1 t.2.1 t.2.2 w) : Except Err _) >>= fun r => _) = _; rw [hmap]; rfl, ?_⟩
  intro d field
  rw [passagesIn, get?_merge]
  swap
  · intro x hx
    obtain ⟨t, ht, rfl⟩ := List.mem_map.1 hx
    exact (hS t ht).2.1
  simp only [Dict.get?_nil, Option.getD_none, List.nil_append, List.flatMap_map, List.filter_flatMap]
  by_cases hex : ∃ t ∈ order tasks, t.1 = field ∧ ∃ m ∈ db.posDocMap, m.field = t.1 ∧ m.firstDoc = t.2.1 ∧ d ∈ m.docs
  · obtain ⟨t, ht, htf, m, hm, e1, e2, hd⟩ := hex
    rw [flatMap_single ((ho tasks).nodup_iff.2 hnod) ht]
    · obtain ⟨-, -, m', hm', e1', e2', h5, h6⟩ := hS t ht
      have : m' = m := partition_unique hP hm' hm (by rw [e1', e1]) (by rw [e2', e2])
      subst this
      obtain ⟨M, hM, hr⟩ := h6 d hd
      rw [e1', htf] at hM
      refine ⟨M, hM, ?_⟩
      rw [List.filter_eq_self.2]
      · exact hr
      · intro p hp
        simp [(h5 d p hp).1, e1', htf]
    · intro t' ht' hne
      rw [List.filter_eq_nil_iff]
      intro p hp hpf
      simp only [decide_eq_true_eq] at hpf
      obtain ⟨-, -, m', hm', e1', e2', h5, -⟩ := hS t' ht'
      obtain ⟨h6, h7⟩ := h5 d p hp
      have hmm : m' = m := partition_of_doc hP hm' hm (by rw [← h6, hpf, e1, htf]) h7 hd
      subst hmm
      apply hne
      have q1 := ((hmem t).1 ((ho tasks).mem_iff.1 ht)).1
      have q2 := ((hmem t').1 ((ho tasks).mem_iff.1 ht')).1
      have a1 : t'.1 = t.1 := by rw [← e1, ← e1']
      have a2 : t'.2.1 = t.2.1 := by rw [← e2, ← e2']
      have a3 : t'.2.2 = t.2.2 := by
        have b1 := Dict.get?_of_mem hq2 q1
        have b2 := Dict.get?_of_mem hq2 q2
        rw [a1, b1] at b2
        exact (Option.some.inj b2).symm
      exact Prod.ext a1 (Prod.ext a2 a3)
  · have hnil : (order tasks).flatMap (fun t => ((Dict.get? (S t) d).getD []).filter (fun p => decide (p.field = field))) = [] := by
      rw [List.flatMap_eq_nil_iff]
      intro t ht
      rw [List.filter_eq_nil_iff]
      intro p hp hpf
      simp only [decide_eq_true_eq] at hpf
      obtain ⟨-, -, m, hm, e1, e2, h5, -⟩ := hS t ht
      obtain ⟨h6, h7⟩ := h5 d p hp
      exact hex ⟨t, ht, by rw [← e1, ← h6, hpf], m, hm, e1, e2, h7⟩
    rw [hnil]
    refine ⟨∅, ⟨by simp, by simp, ?_⟩, ⟨by simp, by simp, by simp, by simp, by simp, by simp⟩⟩
    intro T hT _ _ o hoT
    exfalso
    obtain ⟨c, hc, ref, hr, v, hn, vs, ⟨k, hk1, hk2⟩, hv⟩ := hT o hoT
    have hne : vs ≠ [] := by rintro rfl; simp at hv
    obtain ⟨m, hm, e1, e2, -⟩ := hP.covered d k field vs hk1 hk2 hne
    have hpos : field ∈ positionalFields db :=
      (mem_positionalFields _).2 ((hP.positional field).2 ⟨k, List.mem_of_getElem? hk1, vs, hk2, hne⟩)
    have hkey : field ∈ Dict.keys qs := (hq3 field).2 ⟨hpos, c, hc, ref, hr, v, hn⟩
    obtain ⟨e, he, rfl⟩ := List.mem_map.1 hkey
    exact hex ⟨(e.1, m.firstDoc, e.2), (ho tasks).mem_iff.2 ((hmem _).2 ⟨he, m, hm, e1, rfl⟩), rfl, m, hm, e1, rfl, e2⟩

end
end Hyperreal
