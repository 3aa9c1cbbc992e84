import Verif.Lemmas.RefineGroups
import Verif.Lemmas.Assign

/-! Lemmas about what `refine_clusters` reads and how it stores its result. -/

namespace Hyperreal
open Spec

/-- The cluster ids to refine: the given ones, or all. -/
def chosen (args : RefineArgs) (db : DB) : List Int :=
  if args.clusterIds = [] then db.clusters.map (·.cid) else args.clusterIds

/-! ## Reading -/

theorem select_fold (ids : List Int) : ∀ (rows : List FCRow) (d : Clustering), d.keys.Nodup →
    let d' := rows.foldl (fun (d : Clustering) r =>
      if r.cid ∈ ids then d.set r.cid (insert r.fid ((d.get? r.cid).getD ∅)) else d) d
    d'.keys.Nodup ∧ (∀ c f, In d' c f ↔ In d c f ∨ ∃ r ∈ rows, r.cid = c ∧ r.fid = f ∧ c ∈ ids) ∧
    (∀ c, c ∈ d'.keys ↔ c ∈ d.keys ∨ ∃ r ∈ rows, r.cid = c ∧ c ∈ ids) := by
  intro rows
  induction rows with
  | nil => intro d hd; exact ⟨hd, by simp, by simp⟩
  | cons r rows ih =>
    intro d hd
    simp only [List.foldl_cons]
    by_cases hr : r.cid ∈ ids
    · rw [if_pos hr]
      obtain ⟨h1, h2, h3⟩ := ih (d.set r.cid (insert r.fid ((d.get? r.cid).getD ∅))) (Dict.nodup_set hd _ _)
      refine ⟨h1, ?_, ?_⟩
      · intro c f
        rw [h2]
        have : In (d.set r.cid (insert r.fid ((d.get? r.cid).getD ∅))) c f ↔ In d c f ∨ (r.cid = c ∧ r.fid = f) := by
          unfold In
          rw [Dict.get?_set]
          by_cases hc : c = r.cid
          · subst hc
            rw [if_pos rfl]
            constructor
            · rintro ⟨G, hG, hf⟩
              cases hG
              rw [Finset.mem_insert] at hf
              rcases hf with rfl | hf
              · exact Or.inr ⟨rfl, rfl⟩
              · left
                cases hg : Dict.get? d r.cid with
                | none => rw [hg] at hf; simp at hf
                | some G => rw [hg] at hf; exact ⟨G, rfl, hf⟩
            · rintro (⟨G, hG, hf⟩ | ⟨-, rfl⟩)
              · exact ⟨_, rfl, by rw [hG]; exact Finset.mem_insert_of_mem hf⟩
              · exact ⟨_, rfl, Finset.mem_insert_self _ _⟩
          · rw [if_neg hc]
            constructor
            · rintro ⟨G, hG, hf⟩; exact Or.inl ⟨G, hG, hf⟩
            · rintro (h | ⟨h, -⟩)
              · exact h
              · exact absurd h.symm hc
        rw [this]
        constructor
        · rintro ((h | ⟨h, h'⟩) | ⟨r', hr', h⟩)
          · exact Or.inl h
          · exact Or.inr ⟨r, by simp, h, h', h ▸ hr⟩
          · exact Or.inr ⟨r', by simp [hr'], h⟩
        · rintro (h | ⟨r', hr', h⟩)
          · exact Or.inl (Or.inl h)
          · rcases List.mem_cons.1 hr' with rfl | hr'
            · exact Or.inl (Or.inr ⟨h.1, h.2.1⟩)
            · exact Or.inr ⟨r', hr', h⟩
      · intro c
        rw [h3, Dict.mem_keys_set]
        constructor
        · rintro ((rfl | h) | ⟨r', hr', h⟩)
          · exact Or.inr ⟨r, by simp, rfl, hr⟩
          · exact Or.inl h
          · exact Or.inr ⟨r', by simp [hr'], h⟩
        · rintro (h | ⟨r', hr', h⟩)
          · exact Or.inl (Or.inr h)
          · rcases List.mem_cons.1 hr' with rfl | hr'
            · exact Or.inl (Or.inl h.1.symm)
            · exact Or.inr ⟨r', hr', h⟩
    · rw [if_neg hr]
      obtain ⟨h1, h2, h3⟩ := ih d hd
      refine ⟨h1, ?_, ?_⟩
      · intro c f
        rw [h2]
        constructor
        · rintro (h | ⟨r', hr', h⟩)
          · exact Or.inl h
          · exact Or.inr ⟨r', by simp [hr'], h⟩
        · rintro (h | ⟨r', hr', h⟩)
          · exact Or.inl h
          · rcases List.mem_cons.1 hr' with rfl | hr'
            · exact absurd (h.1 ▸ h.2.2) hr
            · exact Or.inr ⟨r', hr', h⟩
      · intro c
        rw [h3]
        constructor
        · rintro (h | ⟨r', hr', h⟩)
          · exact Or.inl h
          · exact Or.inr ⟨r', by simp [hr'], h⟩
        · rintro (h | ⟨r', hr', h⟩)
          · exact Or.inl h
          · rcases List.mem_cons.1 hr' with rfl | hr'
            · exact absurd (h.1 ▸ h.2) hr
            · exact Or.inr ⟨r', hr', h⟩

theorem selectClusters_spec (args : RefineArgs) {db : DB} (h : Wellformed db) :
    (selectClusters args db).keys.Nodup ∧
    (∀ c f, In (selectClusters args db) c f ↔ assign db f = some c ∧ c ∈ chosen args db) ∧
    (∀ c, c ∈ (selectClusters args db).keys ↔ c ∈ chosen args db ∧ ∃ f, assign db f = some c) := by
  obtain ⟨h1, h2, h3⟩ := select_fold (chosen args db) db.fc [] (by simp [Dict.keys])
  refine ⟨h1, ?_, ?_⟩
  · intro c f
    refine (h2 c f).trans ?_
    rw [assign_some_iff h]
    constructor
    · rintro (⟨G, hG, -⟩ | ⟨r, hr, e1, e2, e3⟩)
      · simp at hG
      · exact ⟨⟨r, hr, e2, e1⟩, e3⟩
    · rintro ⟨⟨r, hr, e1, e2⟩, e3⟩
      exact Or.inr ⟨r, hr, e2, e1, e3⟩
  · intro c
    refine (h3 c).trans ?_
    simp only [assign_some_iff h]
    constructor
    · rintro (hc | ⟨r, hr, e1, e3⟩)
      · simp [Dict.keys] at hc
      · exact ⟨e3, r.fid, r, hr, rfl, e1⟩
    · rintro ⟨e3, f, r, hr, -, e2⟩
      exact Or.inr ⟨r, hr, e2, e3⟩

theorem mem_selectPinned (args : RefineArgs) {db : DB} (h : Wellformed db) (f : Nat) :
    f ∈ selectPinned args db ↔ featurePin db f = some true ∧ ∃ c, assign db f = some c ∧ c ∈ chosen args db := by
  unfold selectPinned
  simp only [List.mem_toFinset, List.mem_map, List.mem_filter, decide_eq_true_eq]
  rw [featurePin_some_iff h]
  simp only [assign_some_iff h]
  constructor
  · rintro ⟨r, ⟨hr, e1, e2⟩, rfl⟩
    exact ⟨⟨r, hr, rfl, e2⟩, r.cid, ⟨r, hr, rfl, rfl⟩, e1⟩
  · rintro ⟨⟨r, hr, e1, e2⟩, c, ⟨r', hr', e3, e4⟩, e5⟩
    have : r' = r := List.inj_on_of_nodup_map h.oneCluster hr' hr (by rw [e3, e1])
    subst this
    exact ⟨r', ⟨hr, by rw [e4]; exact e5, e2⟩, e1⟩

theorem mem_pinnedClusterIds {db : DB} (h : Wellformed db) (c : Int) :
    c ∈ pinnedClusterIds db ↔ clusterPin db c = some true := by
  rw [clusterPin_some_iff h.clusterIds]
  simp only [pinnedClusterIds, List.mem_map, List.mem_filter]
  constructor
  · rintro ⟨k, ⟨hk, hp⟩, e⟩; exact ⟨k, hk, e, hp⟩
  · rintro ⟨k, hk, e, hp⟩; exact ⟨k, ⟨hk, hp⟩, e⟩

theorem dropPinned_spec : ∀ (pinned : List Int) (cf : Clustering) (n : Nat), cf.keys.Nodup →
    let r := pinned.foldl (fun (s : Clustering × Nat) c =>
      if c ∈ s.1.keys then (s.1.filter (fun e => e.1 ≠ c), s.2 + 1) else s) (cf, n)
    r.1.keys = cf.keys.filter (· ∉ pinned) ∧ (∀ c f, In r.1 c f ↔ In cf c f ∧ c ∉ pinned) ∧
    (∀ c, c ∉ pinned → r.1.get? c = cf.get? c) ∧ r.1.length + r.2 = cf.length + n ∧
    r.2 = n + (cf.keys.filter (· ∈ pinned)).length := by
  intro pinned
  induction pinned with
  | nil =>
    intro cf n hn
    refine ⟨by simp, by simp, by simp, rfl, by simp⟩
  | cons p pinned ih =>
    intro cf n hn
    simp only [List.foldl_cons]
    by_cases hp : p ∈ cf.keys
    · rw [if_pos hp]
      have hk : Dict.keys (cf.filter (fun e => e.1 ≠ p)) = cf.keys.filter (· ≠ p) := Dict.keys_filter_ne cf p
      have hn' : (Dict.keys (cf.filter (fun e => e.1 ≠ p))).Nodup := by rw [hk]; exact hn.filter _
      have hlen : (cf.filter (fun e => e.1 ≠ p)).length + 1 = cf.length := by
        rw [Dict.length_eq_keys, hk, Dict.length_eq_keys cf]
        have := filter_notMem_length (g := [p]) hn (by simp) (by simpa using hp)
        simp only [List.mem_singleton, List.length_singleton] at this
        rw [← this]
      obtain ⟨h1, h2, h3, h4, h5⟩ := ih (cf.filter (fun e => e.1 ≠ p)) (n + 1) hn'
      refine ⟨?_, ?_, ?_, by omega, ?_⟩
      · rw [h1, hk, List.filter_filter]
        apply List.filter_congr
        intro c _
        by_cases h : c = p <;> simp [h]
      · intro c f
        rw [h2]
        have : In (cf.filter (fun e => e.1 ≠ p)) c f ↔ In cf c f ∧ c ≠ p := by
          unfold In
          rw [Dict.get?_filter_ne]
          by_cases h : c = p <;> simp [h]
        rw [this]
        simp only [List.mem_cons, not_or]
        tauto
      · intro c hc
        simp only [List.mem_cons, not_or] at hc
        rw [h3 c hc.2, Dict.get?_filter_ne, if_neg hc.1]
      · rw [h5, hk, List.filter_filter]
        have hsplit : (cf.keys.filter (· ∈ p :: pinned)).length =
            (cf.keys.filter (fun a => decide (a ∈ pinned) && decide (a ≠ p))).length + 1 := by
          have e := filter_notMem_length (l := cf.keys.filter (· ∈ p :: pinned)) (g := [p]) (hn.filter _) (by simp)
            (by simpa using hp)
          rw [← e, List.filter_filter, List.length_singleton]
          congr 2
          apply List.filter_congr
          intro c _
          by_cases h : c = p <;> simp [h]
        rw [hsplit]
        omega
    · rw [if_neg hp]
      obtain ⟨h1, h2, h3, h4, h5⟩ := ih cf n hn
      refine ⟨?_, ?_, ?_, h4, ?_⟩
      · rw [h1]
        apply List.filter_congr
        intro c hc
        have : c ≠ p := by rintro rfl; exact hp hc
        simp [this]
      · intro c f
        rw [h2]
        constructor
        · rintro ⟨h, h'⟩
          refine ⟨h, ?_⟩
          simp only [List.mem_cons, not_or]
          exact ⟨by rintro rfl; exact hp h.key, h'⟩
        · rintro ⟨h, h'⟩
          simp only [List.mem_cons, not_or] at h'
          exact ⟨h, h'.2⟩
      · intro c hc
        simp only [List.mem_cons, not_or] at hc
        exact h3 c hc.2
      · rw [h5]
        congr 2
        apply List.filter_congr
        intro c hc
        have : c ≠ p := by rintro rfl; exact hp hc
        simp [this]

/-! ## Storing -/

theorem remap_spec {saved : Clustering} : ∀ (l : List Int) (next : Int) {cf cf' : Clustering}, l.Nodup → cf.keys.Nodup →
    (∀ c ∈ l, (saved.get? c).isSome) →
    remap saved l next cf = .ok cf' → cf'.keys.Nodup ∧
      (∀ (i : Nat) (hi : i < l.length), (∀ j : Nat, i < j → l[j]? ≠ some (next + i)) → cf'.get? (next + i) = saved.get? l[i]) ∧
      (∀ i j : Nat, i < j → l[j]? = some (next + i) → cf'.get? (next + i) = none) ∧
      (∀ c, (c < next ∨ next + l.length ≤ c) → cf'.get? c = if c ∈ l then none else cf.get? c)
  | [], next, cf, cf', _, hn, _, h => by
    simp only [remap, Except.ok.injEq] at h
    subst h
    exact ⟨hn, by simp, by simp, by simp⟩
  | x :: xs, next, cf, cf', hl, hn, hs, h => by
    unfold remap at h
    obtain ⟨cf1, h1, h⟩ := bind_ok h
    obtain ⟨s, hsx, h⟩ := bind_ok h
    obtain ⟨hx, rfl⟩ := Dict.delE_ok h1
    rw [Dict.getE_ok_iff] at hsx
    obtain ⟨hxs, hl'⟩ := List.nodup_cons.1 hl
    have hn1 : (Dict.keys (cf.filter (fun e => e.1 ≠ x))).Nodup := by
      rw [Dict.keys_filter_ne]; exact hn.filter _
    obtain ⟨r1, r2, r3, r4⟩ := remap_spec xs (next + 1) hl' (Dict.nodup_set hn1 next s)
      (fun c hc => hs c (by simp [hc])) h
    refine ⟨r1, ?_, ?_, ?_⟩
    · intro i hi hj
      cases i with
      | zero =>
        simp only [Nat.cast_zero, add_zero, List.getElem_cons_zero] at hj ⊢
        rw [r4 next (Or.inl (by omega)), if_neg, Dict.get?_set, if_pos rfl, hsx]
        intro hmem
        obtain ⟨j, hjl, e⟩ := List.mem_iff_getElem.1 hmem
        exact hj (j + 1) (by omega) (by rw [List.getElem?_cons_succ, List.getElem?_eq_getElem hjl, e])
      | succ i =>
        have := r2 i (by simpa using hi) (by
          intro j hij hjs
          refine hj (j + 1) (by omega) ?_
          rw [List.getElem?_cons_succ, hjs]
          congr 1; push_cast; ring)
        simp only [List.getElem_cons_succ]
        rw [← this]
        congr 1; push_cast; ring
    · intro i j hij hjs
      cases j with
      | zero => omega
      | succ j =>
        rw [List.getElem?_cons_succ] at hjs
        cases i with
        | zero =>
          simp only [Nat.cast_zero, add_zero] at hjs ⊢
          rw [r4 next (Or.inl (by omega)), if_pos (List.mem_of_getElem? hjs)]
        | succ i =>
          have e : next + 1 + (i : Int) = next + ((i + 1 : Nat) : Int) := by push_cast; ring
          rw [← e]
          exact r3 i j (by omega) (by rw [e]; exact hjs)
    · intro c hc
      simp only [List.length_cons, Nat.cast_add, Nat.cast_one] at hc
      have hcn : c ≠ next := by omega
      rw [r4 c (by omega), Dict.get?_set, if_neg hcn, Dict.get?_filter_ne]
      by_cases h1 : c ∈ xs
      · simp [h1]
      · by_cases h2 : c = x <;> simp [h1, h2]

theorem remap_total {saved : Clustering} : ∀ (l : List Int) (next : Int) {cf : Clustering}, l.Nodup →
    (∀ c ∈ l, c ∈ cf.keys) → (∀ c ∈ l, (saved.get? c).isSome) → ∃ cf', remap saved l next cf = .ok cf'
  | [], next, cf, _, _, _ => ⟨cf, rfl⟩
  | x :: xs, next, cf, hl, hk, hs => by
    obtain ⟨hxs, hl'⟩ := List.nodup_cons.1 hl
    obtain ⟨s, hsx⟩ := Option.isSome_iff_exists.1 (hs x (by simp))
    obtain ⟨cf', h'⟩ := remap_total (cf := Dict.set (cf.filter (fun e => e.1 ≠ x)) next s) xs (next + 1) hl' (by
      intro c hc
      rw [Dict.mem_keys_set, Dict.keys_filter_ne, List.mem_filter]
      refine Or.inr ⟨hk c (by simp [hc]), ?_⟩
      simp only [ne_eq, decide_eq_true_eq]
      rintro rfl; exact hxs hc) (fun c hc => hs c (by simp [hc]))
    refine ⟨cf', ?_⟩
    unfold remap
    rw [Dict.delE_eq (hk x (by simp)), Dict.getE_eq _ _ _ hsx]
    exact h'

theorem saved_spec {cf saved : Clustering} {l : List Int} (hl : l.Nodup)
    (h : l.mapM (fun c => do let s ← cf.getE c; pure (c, s)) = .ok saved) :
    ∀ c ∈ l, saved.get? c = cf.get? c ∧ c ∈ cf.keys := by
  have h2 := mapM_ok h
  clear h
  induction h2 with
  | nil => simp
  | @cons a b l bs hab hrest ih =>
    obtain ⟨hal, hl'⟩ := List.nodup_cons.1 hl
    obtain ⟨s, hs, hb⟩ := bind_ok hab
    simp only [pure, Except.pure, Except.ok.injEq] at hb
    subst hb
    rw [Dict.getE_ok_iff] at hs
    intro c hc
    rw [Dict.get?_cons]
    rcases List.mem_cons.1 hc with rfl | hc
    · simp only [if_pos]
      exact ⟨hs.symm, (Dict.get?_isSome _ _).1 ⟨s, hs⟩⟩
    · have : a ≠ c := by rintro rfl; exact hal hc
      rw [if_neg this]
      exact ih hl' c hc

theorem saved_total {cf : Clustering} {l : List Int} (hk : ∀ c ∈ l, c ∈ cf.keys) :
    ∃ saved : Clustering, l.mapM (fun c => (do let s ← cf.getE c; pure (c, s) : Except Err (Int × Finset Nat))) = .ok saved := by
  obtain ⟨bs, hbs, -⟩ := mapM_ok_of_forall (P := fun _ _ => True)
    (fun c => (do let s ← cf.getE c; pure (c, s) : Except Err (Int × Finset Nat))) l (by
      intro c hc
      obtain ⟨s, hs⟩ := (Dict.get?_isSome _ _).2 (hk c hc)
      exact ⟨(c, s), by rw [Dict.getE_eq _ _ _ hs]; rfl, trivial⟩)
  exact ⟨bs, hbs⟩

/-! ## The final assignments -/

theorem lastAssigned_cases (f : Nat) (xs : List (Int × Nat)) : ∀ old,
    (lastAssigned xs f old, f) ∈ xs ∨ (lastAssigned xs f old = old ∧ ∀ c, (c, f) ∉ xs) := by
  induction xs with
  | nil => intro old; simp [lastAssigned]
  | cons x xs ih =>
    intro old
    have := ih (if x.2 = f then x.1 else old)
    simp only [lastAssigned, List.foldl_cons] at this ⊢
    by_cases hx : x.2 = f
    · rw [if_pos hx] at this ⊢
      rcases this with h | ⟨h, -⟩
      · exact Or.inl (List.mem_cons_of_mem _ h)
      · left; rw [h, ← hx]; simp
    · rw [if_neg hx] at this ⊢
      rcases this with h | ⟨h, h'⟩
      · exact Or.inl (List.mem_cons_of_mem _ h)
      · refine Or.inr ⟨h, fun c hc => ?_⟩
        rcases List.mem_cons.1 hc with e | hc
        · exact hx (by rw [← e])
        · exact h' c hc

theorem mem_pairsOf_map {cf : Clustering} (hn : cf.keys.Nodup) (c : Int) (f : Nat) :
    (c, f) ∈ pairsOf (cf.map (fun e => (e.1, Bitmap.elems e.2))) ↔ In cf c f := by
  simp only [pairsOf, List.mem_flatMap, List.mem_map]
  constructor
  · rintro ⟨x, ⟨e, he, rfl⟩, g, hg, h⟩
    simp only [Prod.mk.injEq] at h
    obtain ⟨rfl, rfl⟩ := h
    exact ⟨e.2, Dict.get?_of_mem hn he, Bitmap.mem_elems.1 hg⟩
  · rintro ⟨G, hG, hf⟩
    exact ⟨_, ⟨(c, G), Dict.mem_of_get? hG, rfl⟩, f, Bitmap.mem_elems.2 hf, rfl⟩

end Hyperreal
