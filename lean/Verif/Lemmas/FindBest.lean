import Verif.Lemmas.BestMoves

/-! What `findBestMoves` tests. -/

namespace Hyperreal
open Spec

variable {σ : Type} [LinearOrder σ]

/-- The features considered: all when none is movable. -/
def Considered (cf : Dict Int (Finset Nat)) (movable : Finset Nat) (f : Nat) : Prop :=
  f ∈ movable ∨ (movable = ∅ ∧ ∃ c G, cf.get? c = some G ∧ f ∈ G)

theorem considered_set {cf : Dict Int (Finset Nat)} (hn : cf.keys.Nodup) (hne : cf ≠ []) (movable : Finset Nat) :
    ∃ M, consideredFeatures cf movable = .ok M ∧
      ∀ f, f ∈ M ↔ Considered cf movable f := by
  unfold consideredFeatures
  by_cases h : movable.card = 0
  · rw [if_pos h]
    obtain ⟨M, hM, hmem⟩ := unionAll_spec (l := cf.map (·.2)) (by simpa using hne)
    refine ⟨M, hM, fun f => ?_⟩
    have h0 : movable = ∅ := Finset.card_eq_zero.1 h
    rw [hmem]
    constructor
    · rintro ⟨t, ht, hf⟩
      obtain ⟨e, he, rfl⟩ := List.mem_map.1 ht
      exact Or.inr ⟨h0, e.1, e.2, Dict.get?_of_mem hn he, hf⟩
    · rintro (hf | ⟨-, c, G, hG, hf⟩)
      · rw [h0] at hf; simp at hf
      · exact ⟨G, List.mem_map.2 ⟨(c, G), Dict.mem_of_get? hG, rfl⟩, hf⟩
  · rw [if_neg h]
    refine ⟨movable, rfl, fun f => ⟨Or.inl, ?_⟩⟩
    rintro (hf | ⟨h0, -⟩)
    · exact hf
    · exact absurd (Finset.card_eq_zero.2 h0) h

theorem dictOf_spec {κ ν : Type} [LinearOrder κ] {P : κ → ν → Prop} (l : List (κ × ν)) (hl : ∀ e ∈ l, P e.1 e.2) :
    (∀ k v, (dictOf l).get? k = some v → P k v) ∧ (∀ k, k ∈ (dictOf l).keys ↔ k ∈ l.map (·.1)) ∧
    (dictOf l).keys.Nodup := by
  obtain ⟨h1, h2, h3⟩ := get?_foldl_set l hl [] (by simp [Dict.keys]) (by simp)
  refine ⟨h1, ?_, h3⟩
  intro k
  have := h2 k
  simp only [Dict.keys, List.map_nil, List.not_mem_nil, false_or] at this
  exact this

theorem everyNth_mem_of {α : Type} {l : List α} {i n : Nat} {x : α} (h : x ∈ everyNth l i n) : x ∈ l := by
  simp only [everyNth, List.mem_map, List.mem_filter] at h
  obtain ⟨y, ⟨hy, -⟩, rfl⟩ := h
  exact List.fst_mem_of_mem_zipIdx hy

/-- The features of a group of clusters. -/
def groupUnion (cf : Dict Int (Finset Nat)) (g : List Int) : Finset Nat := g.toFinset.biUnion (fun c => (cf.get? c).getD ∅)

attribute [-instance] instDecidableEqList

/-- With group testing: the clusters whose checks were selected. -/
theorem findBestMoves_spec {measure : Finset Nat → Finset Nat → Except Err (Contribution σ)} (hm : Complete measure)
    {cf : Dict Int (Finset Nat)} (hn : cf.keys.Nodup) (hne : cf ≠ []) {ids : List Int} (hp : ids.Perm cf.keys)
    (movable : Finset Nat) (hmov : ∀ f ∈ movable, ∃ c G, cf.get? c = some G ∧ f ∈ G) (batches topK : Nat)
    (hk : 1 ≤ topK ∨ batches = 0 ∨ batches * 2 > cf.length) :
    ∃ s checks, findBestMoves measure cf ids movable batches topK = .ok s ∧
      scoreProposedMoves measure cf checks 1 = .ok s ∧ checks.keys.Nodup ∧ (∀ c ∈ checks.keys, c ∈ cf.keys) ∧
      (∀ f, Considered cf movable f → ∃ c G A, cf.get? c = some G ∧ G.Nonempty ∧ checks.get? c = some A ∧ f ∈ A) ∧
      ((batches = 0 ∨ batches * 2 > cf.length) → ∀ c ∈ cf.keys, ∃ A, checks.get? c = some A ∧
        ∀ f, f ∈ A ↔ Considered cf movable f) ∧
      (batches ≤ 1 → ∀ f, Considered cf movable f → ∀ c ∈ cf.keys, ∃ A, checks.get? c = some A ∧ f ∈ A) ∧
      (¬ (batches = 0 ∨ batches * 2 > cf.length) → ∃ (groups : List (List Int)) (M : Finset Nat),
        groups.length = batches ∧ groups.flatten.Perm cf.keys ∧
        (∀ g ∈ groups, cf.length / batches ≤ g.length ∧ g.length ≤ cf.length / batches + 1) ∧
        (∀ f, f ∈ M ↔ Considered cf movable f) ∧
        ∀ f ∈ M, ∃ L : List (σ ×ₗ List Int),
          IsTop topK (fun x => (ofLex x).2 ∈ groups ∧ ∃ r, measure (groupUnion cf (ofLex x).2) (M \ groupUnion cf (ofLex x).2) = .ok r ∧
            (f, (ofLex x).1) ∈ r.scores) L ∧
          ∀ c, (∃ A, checks.get? c = some A ∧ f ∈ A) ↔ ∃ g ∈ L, c ∈ (ofLex g).2) := by
  obtain ⟨M, hM, hMmem⟩ := considered_set hn hne movable
  have hids : ids.Nodup := hp.nodup_iff.2 hn
  have hlen : ids.length = cf.length := by rw [hp.length_eq, Dict.length_eq_keys]
  have hhome : ∀ f, Considered cf movable f → ∃ c G, cf.get? c = some G ∧ f ∈ G := by
    rintro f (hf | ⟨-, h⟩)
    · exact hmov f hf
    · exact h
  unfold findBestMoves
  rw [hM]
  simp only [bind, Except.bind]
  unfold selectChecks
  by_cases hb : batches = 0 ∨ 2 * batches > ids.length
  · -- dense
    rw [if_pos hb]
    simp only
    set checks : Dict Int (Finset Nat) := ids.map (fun c => (c, M)) with hchecks
    have hck : checks.keys = ids := by
      simp only [hchecks, Dict.keys, List.map_map]
      conv_rhs => rw [← List.map_id ids]
      rfl
    have hcn : checks.keys.Nodup := by rw [hck]; exact hids
    have hget : ∀ c ∈ ids, checks.get? c = some M := fun c hc =>
      Dict.get?_of_mem hcn (List.mem_map.2 ⟨c, hc, rfl⟩)
    have hsub : ∀ c ∈ checks.keys, c ∈ cf.keys := fun c hc => by
      rw [hck] at hc; exact hp.mem_iff.1 hc
    obtain ⟨s, hs⟩ := scoreProposedMoves_total hm.total hsub 1
    refine ⟨s, checks, hs, hs, hcn, hsub, ?_, ?_, ?_, ?_⟩
    · intro f hf
      obtain ⟨c, G, hG, hfG⟩ := hhome f hf
      exact ⟨c, G, M, hG, ⟨f, hfG⟩, hget c (hp.mem_iff.2 ((Dict.get?_isSome _ _).1 ⟨G, hG⟩)), (hMmem f).2 hf⟩
    · intro _ c hc
      exact ⟨M, hget c (hp.mem_iff.2 hc), hMmem⟩
    · intro _ f hf c hc
      exact ⟨M, hget c (hp.mem_iff.2 hc), (hMmem f).2 hf⟩
    · intro hd
      exact absurd (by omega) hd
  · -- group testing
    rw [if_neg hb]
    rw [not_or] at hb
    obtain ⟨hb, hb2⟩ := hb
    have hk : 1 ≤ topK := hk.resolve_right (by omega)
    have hbpos : 0 < batches := Nat.pos_of_ne_zero hb
    unfold groupTest
    simp only [bind, Except.bind]
    set groupKeys := (List.range batches).map (fun i => (everyNth ids i batches).insertionSort (· ≤ ·)) with hgk
    -- each group is non-empty, of known clusters
    have hgmem : ∀ g ∈ groupKeys, g ≠ [] ∧ ∀ c ∈ g, c ∈ cf.keys := by
      intro g hg
      obtain ⟨i, hi, rfl⟩ := List.mem_map.1 hg
      rw [List.mem_range] at hi
      constructor
      · intro h
        have := congrArg List.length h
        rw [List.length_insertionSort, everyNth_length ids i batches hi] at this
        simp only [List.length_nil] at this
        have h1 : 1 ≤ ids.length / batches := (Nat.one_le_div_iff hbpos).2 (by omega)
        have h2 : 1 ≤ (ids.length + batches - 1 - i) / batches := (Nat.one_le_div_iff hbpos).2 (by omega)
        omega
      · intro c hc
        exact hp.mem_iff.1 (everyNth_mem_of ((List.perm_insertionSort _ _).mem_iff.1 hc))
    have hgcover : ∀ c ∈ cf.keys, ∃ g ∈ groupKeys, c ∈ g := by
      intro c hc
      have := (deal_perm ids batches hbpos).mem_iff.2 (hp.mem_iff.2 hc)
      obtain ⟨i, hi, hci⟩ := List.mem_flatMap.1 this
      exact ⟨_, List.mem_map.2 ⟨i, hi, rfl⟩, (List.perm_insertionSort _ _).mem_iff.2 hci⟩
    obtain ⟨feats, hfeats, hF⟩ := mapM_ok_of_forall
      (P := fun g s => g ∈ groupKeys ∧ ∀ x, x ∈ s ↔ ∃ c ∈ g, ∃ G, cf.get? c = some G ∧ x ∈ G) (groupFeatures cf) groupKeys (by
        intro g hg
        obtain ⟨s, hs, hx⟩ := groupFeatures_spec (hgmem g hg).1 (hgmem g hg).2
        exact ⟨s, hs, hg, hx⟩)
    rw [hfeats]
    simp only
    set gf : Dict (List Int) (Finset Nat) := dictOf (groupKeys.zip feats) with hgf
    set gc : Dict (List Int) (Finset Nat) := dictOf (groupKeys.map (fun k => (k, M))) with hgc
    obtain ⟨g1, g2, g3⟩ := dictOf_spec (κ := List Int) (ν := Finset Nat)
      (P := fun g s => g ∈ groupKeys ∧ ∀ x, x ∈ s ↔ ∃ c ∈ g, ∃ G, cf.get? c = some G ∧ x ∈ G)
      (groupKeys.zip feats) (forall₂_zip hF).1
    rw [← hgf] at g1 g2 g3
    obtain ⟨c1, c2, c3⟩ := dictOf_spec (κ := List Int) (ν := Finset Nat) (P := fun _ s => s = M)
      (groupKeys.map (fun k => (k, M))) (by simp)
    rw [← hgc] at c1 c2 c3
    have hgfk : ∀ g, g ∈ gf.keys ↔ g ∈ groupKeys := by
      intro g; rw [g2, (forall₂_zip hF).2]
    have hgck : ∀ g, g ∈ gc.keys ↔ g ∈ groupKeys := by
      intro g; rw [c2]; simp
    obtain ⟨b, hbst⟩ := scoreProposedMoves_total (κ := List Int) hm.total (cf := gf) (checks := gc)
      (fun g hg => (hgfk g).2 ((hgck g).1 hg)) topK
    obtain ⟨t1, t2, -, t4⟩ := scoreProposedMoves_spec hm.distinct c3 hbst
    have hgg : ∀ g ∈ groupKeys, ∃ s, gf.get? g = some s ∧ ∀ x, x ∈ s ↔ ∃ c ∈ g, ∃ G, cf.get? c = some G ∧ x ∈ G := by
      intro g hg
      obtain ⟨s, hs⟩ := (Dict.get?_isSome _ _).2 ((hgfk g).2 hg)
      exact ⟨s, hs, (g1 g s hs).2⟩
    have hgcm : ∀ g ∈ groupKeys, gc.get? g = some M := by
      intro g hg
      obtain ⟨s, hs⟩ := (Dict.get?_isSome _ _).2 ((hgck g).2 hg)
      rw [hs, c1 g s hs]
    rw [hbst]
    simp only [pure, Except.pure]
    set checks := groupChecks M b.2 with hchk
    obtain ⟨k1, k2⟩ := groupChecks_spec M b.2
    rw [← hchk] at k1 k2
    have htested : ∀ f x, Tested measure gf gc f x → (ofLex x).2 ∈ groupKeys := by
      rintro f x ⟨G, A, r, hG, -⟩
      exact (hgfk _).1 ((Dict.get?_isSome _ _).1 ⟨G, hG⟩)
    have hsub : ∀ c ∈ checks.keys, c ∈ cf.keys := by
      intro c hc
      obtain ⟨x, _, gs, hgs, g, hg, hcg⟩ := groupChecks_keys M b.2 c hc
      have hT := ((t1 x gs (Dict.get?_of_mem t4 hgs)).1.members g hg)
      exact (hgmem _ (htested _ _ hT)).2 c hcg
    obtain ⟨s, hs⟩ := scoreProposedMoves_total hm.total hsub 1
    -- a considered feature has a best group, which was tested
    have hbest : ∀ f, Considered cf movable f → ∃ gs, (f, gs) ∈ b.2 ∧ ∃ g ∈ gs, Tested measure gf gc f g := by
      intro f hf
      obtain ⟨c, G, hG, hfG⟩ := hhome f hf
      obtain ⟨g, hg, hcg⟩ := hgcover c ((Dict.get?_isSome _ _).1 ⟨G, hG⟩)
      obtain ⟨S, hS, hSm⟩ := hgg g hg
      have hfS : f ∈ S := (hSm f).2 ⟨c, hcg, G, hG, hfG⟩
      obtain ⟨sc, hsc⟩ := tested_exists hm hS (hgcm g hg) ⟨f, hfS⟩ (Or.inl hfS)
      obtain ⟨L, hL⟩ := t2 f ⟨_, hsc⟩
      have htop := (t1 f L hL).1
      have hLne : L ≠ [] := by
        intro h
        subst h
        have := (htop.best _ hsc (by simp)).1
        simp at this
        omega
      obtain ⟨y, hy⟩ := List.exists_mem_of_ne_nil _ hLne
      exact ⟨L, Dict.mem_of_get? hL, y, hy, htop.members y hy⟩
    have hcheck : ∀ f c gs g, Considered cf movable f → (f, gs) ∈ b.2 → g ∈ gs → c ∈ (ofLex g).2 →
        ∃ A, checks.get? c = some A ∧ f ∈ A := by
      intro f c gs g hf hgs hg hc
      have hx : f ∈ (checks.get? c).getD ∅ := (k2 c f).2 ⟨(hMmem f).2 hf, gs, hgs, g, hg, hc⟩
      cases hA : checks.get? c with
      | none => rw [hA] at hx; simp at hx
      | some A => rw [hA] at hx; exact ⟨A, rfl, hx⟩
    refine ⟨s, checks, hs, hs, k1, hsub, ?_, ?_, ?_, ?_⟩
    · intro f hf
      obtain ⟨gs, hgs, g, hg, hT⟩ := hbest f hf
      -- the group was scored, so it has a feature, so one of its clusters has
      obtain ⟨S, A, r, hS, hA, hr, hfr⟩ := hT
      have hSne : S.Nonempty := ((hm.scored S (A \ S) r f hr).1 (List.mem_map.2 ⟨_, hfr, rfl⟩)).1
      obtain ⟨x, hx⟩ := hSne
      obtain ⟨c, hcg, G, hG, hxG⟩ := ((g1 _ S hS).2 x).1 hx
      obtain ⟨A', hA', hfA'⟩ := hcheck f c gs g hf hgs hg hcg
      exact ⟨c, G, A', hG, ⟨x, hxG⟩, hA', hfA'⟩
    · rintro (h | h)
      · exact absurd h hb
      · omega
    · intro hb1 f hf c hc
      have hb1' : batches = 1 := by omega
      obtain ⟨gs, hgs, g, hg, hT⟩ := hbest f hf
      have hgK := htested _ _ hT
      -- there is only one group
      obtain ⟨g', hg', hcg'⟩ := hgcover c hc
      have hone : ∀ a ∈ groupKeys, ∀ b ∈ groupKeys, a = b := by
        intro a ha b hb
        rw [hgk, hb1'] at ha hb
        simp only [List.range_one, List.map_cons, List.map_nil, List.mem_singleton] at ha hb
        rw [ha, hb]
      rw [hone g' hg' _ hgK] at hcg'
      exact hcheck f c gs g hf hgs hg hcg'
    · intro _
      have hunion : ∀ g ∈ groupKeys, gf.get? g = some (groupUnion cf g) := by
        intro g hg
        obtain ⟨S, hS, hSm⟩ := hgg g hg
        rw [hS]
        congr 1
        ext x
        rw [hSm]
        unfold groupUnion
        simp only [Finset.mem_biUnion, List.mem_toFinset]
        constructor
        · rintro ⟨c, hc, G, hG, hx⟩
          exact ⟨c, hc, by rw [hG]; exact hx⟩
        · rintro ⟨c, hc, hx⟩
          cases hG : cf.get? c with
          | none => rw [hG] at hx; simp at hx
          | some G => rw [hG] at hx; exact ⟨c, hc, G, hG, hx⟩
      refine ⟨groupKeys, M, by simp [hgk], ?_, ?_, hMmem, ?_⟩
      · refine List.Perm.trans ?_ ((deal_perm ids batches hbpos).trans hp)
        rw [hgk, ← List.flatMap_def]
        exact List.Perm.flatMap_left _ (fun i _ => List.perm_insertionSort _ _)
      · intro g hg
        obtain ⟨i, hi, rfl⟩ := List.mem_map.1 hg
        rw [List.mem_range] at hi
        rw [List.length_insertionSort, everyNth_length ids i batches hi, hlen]
        constructor
        · exact Nat.div_le_div_right (by omega)
        · rw [← Nat.add_div_right _ hbpos]
          exact Nat.div_le_div_right (by omega)
      · intro f hfM
        have hf := (hMmem f).1 hfM
        obtain ⟨L, hL, -⟩ := hbest f hf
        have hLg := Dict.get?_of_mem t4 hL
        have htop := (t1 f L hLg).1
        have hiff : ∀ x, Tested measure gf gc f x ↔ (ofLex x).2 ∈ groupKeys ∧ ∃ r,
            measure (groupUnion cf (ofLex x).2) (M \ groupUnion cf (ofLex x).2) = .ok r ∧ (f, (ofLex x).1) ∈ r.scores := by
          intro x
          constructor
          · intro hT
            have hx := htested f x hT
            obtain ⟨G, A, r, hG, hA, hr, hfr⟩ := hT
            rw [hunion _ hx] at hG
            rw [hgcm _ hx] at hA
            cases hG; cases hA
            exact ⟨hx, r, hr, hfr⟩
          · rintro ⟨hx, r, hr, hfr⟩
            exact ⟨_, M, r, hunion _ hx, hgcm _ hx, hr, hfr⟩
        refine ⟨L, ⟨htop.descending, fun x hx => (hiff x).1 (htop.members x hx), htop.size,
          fun x hx => htop.best x ((hiff x).2 hx)⟩, fun c => ⟨?_, ?_⟩⟩
        · rintro ⟨A, hA, hfA⟩
          obtain ⟨-, gs, hgs, g, hg, hc⟩ := (k2 c f).1 (by rw [hA]; exact hfA)
          have : gs = L := by
            have := Dict.get?_of_mem t4 hgs
            rw [hLg] at this
            exact (Option.some.inj this).symm
          subst this
          exact ⟨g, hg, hc⟩
        · rintro ⟨g, hg, hc⟩
          exact hcheck f c L g hf hL hg hc

/-- With `group_test_top_k=0` group testing selects nothing. -/
theorem findBestMoves_zero {measure : Finset Nat → Finset Nat → Except Err (Contribution σ)}
    {cf : Dict Int (Finset Nat)} {ids : List Int} {movable : Finset Nat} {batches : Nat}
    (hb : ¬ (batches = 0 ∨ 2 * batches > ids.length)) {s : Scores σ Int}
    (h : findBestMoves measure cf ids movable batches 0 = .ok s) : s = ([], []) := by
  have hrec : ∀ (k : List Int) (l : List (Nat × σ)) (b : Dict Nat (List (σ ×ₗ List Int))), (∀ e ∈ b, e.2 = []) →
      ∀ e ∈ l.foldl (recordScore 0 k) b, e.2 = [] := by
    intro k l
    induction l with
    | nil => intro b hb; exact hb
    | cons x l ih =>
      intro b hb
      refine ih _ ?_
      have hget : (b.get? x.1).getD [] = [] := by
        cases hx : b.get? x.1 with
        | none => rfl
        | some v => exact hb _ (Dict.mem_of_get? hx)
      intro e he
      unfold recordScore at he
      simp only [hget, List.length_nil, lt_self_iff_false, if_false, heapPushPop] at he
      rcases Dict.mem_set he with h | h
      · exact hb e h
      · rw [h]
  unfold findBestMoves at h
  obtain ⟨M, -, h⟩ := bind_ok h
  obtain ⟨checks, hc, h⟩ := bind_ok h
  rw [selectChecks, if_neg hb] at hc
  unfold groupTest at hc
  obtain ⟨feats, -, hc⟩ := bind_ok hc
  obtain ⟨b, hbst, hc⟩ := bind_ok hc
  simp only [pure, Except.pure, Except.ok.injEq] at hc
  have hb2 : ∀ e ∈ b.2, e.2 = [] := by
    unfold scoreProposedMoves at hbst
    split at hbst
    · cases hbst
    · obtain ⟨results, -, hbst⟩ := bind_ok hbst
      simp only [pure, Except.pure, Except.ok.injEq] at hbst
      subst hbst
      intro e he
      obtain ⟨e', he', rfl⟩ := List.mem_map.1 he
      have key : ∀ (rs : List (List Int × Contribution σ)) (b : Dict Nat (List (σ ×ₗ List Int))), (∀ e ∈ b, e.2 = []) →
          ∀ e ∈ rs.foldl (fun b r => r.2.scores.foldl (recordScore 0 r.1) b) b, e.2 = [] := by
        intro rs
        induction rs with
        | nil => intro b hb; exact hb
        | cons r rs ih => intro b hb; exact ih _ (hrec _ _ _ hb)
      simp [key results [] (by simp) e' he']
  have hchk : checks = [] := by
    rw [← hc]
    unfold groupChecks
    have key : ∀ l : Dict Nat (List (σ ×ₗ List Int)), (∀ e ∈ l, e.2 = []) →
        l.foldl (fun checks e => if e.1 ∈ M then
          e.2.foldl (fun checks g => (ofLex g).2.foldl (fun checks c =>
            Dict.set checks c (insert e.1 ((Dict.get? checks c).getD ∅))) checks) checks else checks) ([] : Dict Int (Finset Nat)) = [] := by
      intro l
      induction l with
      | nil => intro _; rfl
      | cons e l ih =>
        intro hl
        rw [List.foldl_cons, hl e (by simp)]
        simp only [List.foldl_nil, ite_self]
        exact ih (fun x hx => hl x (by simp [hx]))
    exact key b.2 hb2
  subst hchk
  unfold scoreProposedMoves at h
  simp only [Dict.keys, List.map_nil, List.any_nil, Bool.false_eq_true, if_false, List.insertionSort_nil, List.mapM_nil] at h
  cases h
  rfl

end Hyperreal
