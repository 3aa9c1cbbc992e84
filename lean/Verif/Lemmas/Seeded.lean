import Verif.Model.Seeded
import Verif.Lemmas.FindBest

/-! Lemmas about refinement with a generator: what the workers compute does not depend on their orders. -/

namespace Hyperreal
open Spec

section
variable {σ κ : Type} [LinearOrder σ] [LinearOrder κ]

/-- Two measurements agree up to the order of their scores. -/
def SameMeasure (m1 m2 : Finset Nat → Finset Nat → Except Err (Contribution σ)) : Prop :=
  ∀ G A, ∃ r1 r2, m1 G A = .ok r1 ∧ m2 G A = .ok r2 ∧ r1.objective = r2.objective ∧
    (∀ x, x ∈ r1.scores ↔ x ∈ r2.scores)

/-- Two results of scoring agree on every lookup. -/
def SameScores (a b : Except Err (Scores σ κ)) : Prop :=
  (∃ e, a = .error e ∧ b = .error e) ∨
  ∃ s t, a = .ok s ∧ b = .ok t ∧ (∀ c, s.1.get? c = t.1.get? c) ∧ ∀ f, s.2.get? f = t.2.get? f

theorem isTop_unique {α : Type} [LinearOrder α] {k : Nat} {S : α → Prop} {L M : List α} (h1 : IsTop k S L)
    (h2 : IsTop k S M) : L = M := by
  have mem : ∀ {L M : List α}, IsTop k S L → IsTop k S M → ∀ x, x ∈ L → x ∈ M := by
    intro L M h1 h2 x hx
    by_contra hn
    obtain ⟨hl, hb⟩ := h2.best x (h1.members x hx) hn
    have hnL : L.Nodup := h1.descending.imp (fun h => ne_of_gt h)
    have hnM : M.Nodup := h2.descending.imp (fun h => ne_of_gt h)
    by_cases hsub : ∀ y ∈ M, y ∈ L
    · have h3 : (x :: M).Nodup := List.nodup_cons.2 ⟨hn, hnM⟩
      have h4 : (x :: M).Subperm L := h3.subperm (by
        intro y hy
        rcases List.mem_cons.1 hy with rfl | hy
        · exact hx
        · exact hsub y hy)
      have := h4.length_le
      have := h1.size
      simp only [List.length_cons] at *
      omega
    · push Not at hsub
      obtain ⟨y, hy, hyL⟩ := hsub
      obtain ⟨-, hb'⟩ := h1.best y (h2.members y hy) hyL
      exact absurd (hb y hy) (not_lt_of_gt (hb' x hx))
  have hp : L.Perm M := (List.perm_ext_iff_of_nodup (h1.descending.imp (fun h => ne_of_gt h))
    (h2.descending.imp (fun h => ne_of_gt h))).2 (fun x => ⟨mem h1 h2 x, mem h2 h1 x⟩)
  exact hp.eq_of_pairwise (fun a b _ _ h h' => absurd h (not_lt_of_gt h')) h1.descending h2.descending

theorem option_ext_of_iff {α : Type} {x y : Option α} (h : ∀ a, x = some a ↔ y = some a) : x = y := by
  cases x with
  | none =>
    cases y with
    | none => rfl
    | some b => exact absurd ((h b).2 rfl) (by simp)
  | some a => exact ((h a).1 rfl).symm

theorem scoreProposedMoves_same {m1 m2 : Finset Nat → Finset Nat → Except Err (Contribution σ)} (h1 : Complete m1)
    (h2 : Complete m2) (hs : SameMeasure m1 m2) {cf c1 c2 : Dict κ (Finset Nat)} (hn1 : c1.keys.Nodup)
    (hn2 : c2.keys.Nodup) (hc : ∀ k, c1.get? k = c2.get? k) (topK : Nat) :
    SameScores (scoreProposedMoves m1 cf c1 topK) (scoreProposedMoves m2 cf c2 topK) := by
  have hkeys : ∀ k, k ∈ c1.keys ↔ k ∈ c2.keys := by
    intro k; rw [← Dict.get?_isSome, ← Dict.get?_isSome, hc]
  by_cases hsub : ∀ c ∈ c1.keys, c ∈ cf.keys
  · obtain ⟨s, hs1⟩ := scoreProposedMoves_total h1.total hsub topK
    obtain ⟨t, ht1⟩ := scoreProposedMoves_total h2.total (cf := cf) (checks := c2)
      (fun c h => hsub c ((hkeys c).2 h)) topK
    refine Or.inr ⟨s, t, hs1, ht1, ?_⟩
    obtain ⟨a1, a2, a3, -⟩ := scoreProposedMoves_spec h1.distinct hn1 hs1
    obtain ⟨b1, b2, b3, -⟩ := scoreProposedMoves_spec h2.distinct hn2 ht1
    have hT : ∀ f, Tested m1 cf c1 f = Tested m2 cf c2 f := by
      intro f
      funext x
      apply propext
      constructor
      · rintro ⟨G, A, r, hG, hA, hr, hf⟩
        obtain ⟨r1, r2, e1, e2, -, e3⟩ := hs G (A \ G)
        rw [hr] at e1; cases e1
        exact ⟨G, A, r2, hG, (hc _) ▸ hA, e2, (e3 _).1 hf⟩
      · rintro ⟨G, A, r, hG, hA, hr, hf⟩
        obtain ⟨r1, r2, e1, e2, -, e3⟩ := hs G (A \ G)
        rw [hr] at e2; cases e2
        exact ⟨G, A, r1, hG, (hc _).symm ▸ hA, e1, (e3 _).2 hf⟩
    constructor
    · intro c
      apply option_ext_of_iff
      intro o
      rw [a3, b3]
      constructor
      · rintro ⟨G, A, r, hG, hA, hr, ho⟩
        obtain ⟨r1, r2, e1, e2, e4, -⟩ := hs G (A \ G)
        rw [hr] at e1; cases e1
        exact ⟨G, A, r2, hG, (hc _) ▸ hA, e2, e4 ▸ ho⟩
      · rintro ⟨G, A, r, hG, hA, hr, ho⟩
        obtain ⟨r1, r2, e1, e2, e4, -⟩ := hs G (A \ G)
        rw [hr] at e2; cases e2
        exact ⟨G, A, r1, hG, (hc _).symm ▸ hA, e1, e4.symm ▸ ho⟩
    · intro f
      by_cases hx : ∃ x, Tested m1 cf c1 f x
      · obtain ⟨L, hL⟩ := a2 f hx
        obtain ⟨M, hM⟩ := b2 f (by rw [← hT]; exact hx)
        rw [hL, hM]
        have := (b1 f M hM).1
        rw [← hT] at this
        rw [isTop_unique (a1 f L hL).1 this]
      · have e1 : s.2.get? f = none := by
          cases h : s.2.get? f with
          | none => rfl
          | some L => exact absurd (a1 f L h).2 hx
        have e2 : t.2.get? f = none := by
          cases h : t.2.get? f with
          | none => rfl
          | some L => exact absurd (by rw [hT]; exact (b1 f L h).2) hx
        rw [e1, e2]
  · refine Or.inl ⟨.keyError, ?_, ?_⟩
    · unfold scoreProposedMoves
      rw [if_pos]
      push Not at hsub
      obtain ⟨c, h, h'⟩ := hsub
      exact List.any_eq_true.2 ⟨c, h, by simpa using h'⟩
    · unfold scoreProposedMoves
      rw [if_pos]
      push Not at hsub
      obtain ⟨c, h, h'⟩ := hsub
      exact List.any_eq_true.2 ⟨c, (hkeys c).1 h, by simpa using h'⟩

theorem groupChecks_same {b1 b2 : Dict Nat (List (σ ×ₗ List Int))} (hn1 : b1.keys.Nodup) (hn2 : b2.keys.Nodup)
    (h : ∀ f, b1.get? f = b2.get? f) (M : Finset Nat) (c : Int) :
    (groupChecks M b1).get? c = (groupChecks M b2).get? c := by
  have hsets : ((groupChecks M b1).get? c).getD ∅ = ((groupChecks M b2).get? c).getD ∅ := by
    ext x
    rw [(groupChecks_spec M b1).2, (groupChecks_spec M b2).2]
    simp only [Dict.mem_values_iff hn1, Dict.mem_values_iff hn2, h]
  have hne : ∀ (b : Dict Nat (List (σ ×ₗ List Int))), b.keys.Nodup → ∀ A, (groupChecks M b).get? c = some A → A ≠ ∅ := by
    intro b hb A hA he
    obtain ⟨x, hx, gs, hgs, g, hg, hcg⟩ := groupChecks_keys M b c ((Dict.get?_isSome _ _).1 ⟨A, hA⟩)
    have := ((groupChecks_spec M b).2 c x).2 ⟨hx, gs, hgs, g, hg, hcg⟩
    rw [hA, he] at this
    simp at this
  cases h1 : (groupChecks M b1).get? c with
  | none =>
    cases h2 : (groupChecks M b2).get? c with
    | none => rfl
    | some A =>
      rw [h1, h2] at hsets
      exact absurd hsets.symm (hne b2 hn2 A h2)
  | some A =>
    cases h2 : (groupChecks M b2).get? c with
    | none =>
      rw [h1, h2] at hsets
      exact absurd hsets (hne b1 hn1 A h1)
    | some B =>
      rw [h1, h2] at hsets
      simp only [Option.getD_some] at hsets
      rw [hsets]

attribute [-instance] instDecidableEqList

theorem findBestMoves_same {m1 m2 : Finset Nat → Finset Nat → Except Err (Contribution σ)} (h1 : Complete m1)
    (h2 : Complete m2) (hs : SameMeasure m1 m2) (cf : Dict Int (Finset Nat)) (ids : List Int) (hids : ids.Nodup)
    (movable : Finset Nat) (batches topK : Nat) :
    SameScores (findBestMoves m1 cf ids movable batches topK) (findBestMoves m2 cf ids movable batches topK) := by
  unfold findBestMoves
  cases hM : consideredFeatures cf movable with
  | error e => exact Or.inl ⟨e, rfl, rfl⟩
  | ok M =>
    simp only [bind, Except.bind]
    unfold selectChecks
    by_cases hb : batches = 0 ∨ 2 * batches > ids.length
    · simp only [if_pos hb]
      have hk : (Dict.keys (ids.map (fun c => (c, M)))).Nodup := by
        simpa [Dict.keys, Function.comp_def] using hids
      exact scoreProposedMoves_same h1 h2 hs hk hk (fun _ => rfl) 1
    · simp only [if_neg hb]
      unfold groupTest
      simp only [bind, Except.bind]
      set keys := (List.range batches).map (fun i => (everyNth ids i batches).insertionSort (· ≤ ·)) with hkeys
      cases hf : keys.mapM (groupFeatures cf) with
      | error e => exact Or.inl ⟨e, by rfl, by rfl⟩
      | ok feats =>
        simp only
        have hn := (dictOf_spec (P := fun _ _ => True) (keys.map (fun k => (k, M))) (fun _ _ => trivial)).2.2
        have hsame := scoreProposedMoves_same h1 h2 hs (cf := dictOf (keys.zip feats)) hn hn (fun _ => rfl) topK
        rcases hsame with ⟨e, ea, eb⟩ | ⟨s, t, ea, eb, -, e2⟩
        · rw [ea, eb]; exact Or.inl ⟨e, rfl, rfl⟩
        · rw [ea, eb]
          simp only [pure, Except.pure]
          have n1 := (scoreProposedMoves_spec h1.distinct hn ea).2.2.2
          have n2 := (scoreProposedMoves_spec h2.distinct hn eb).2.2.2
          exact scoreProposedMoves_same h1 h2 hs (groupChecks_spec M s.2).1 (groupChecks_spec M t.2).1
            (groupChecks_same n1 n2 e2 M) 1

end

section
variable {σ : Type} [LinearOrder σ]

theorem isScore_unique {docs : Nat → Bitmap} {G : Finset Nat} {f : Nat} {s t : Rat} (h1 : IsScore docs G f s)
    (h2 : IsScore docs G f t) : s = t := by
  obtain ⟨a1, a2, a3, a4, a5⟩ := h1
  obtain ⟨b1, b2, b3, b4, b5⟩ := h2
  by_cases hf : f ∈ G
  · by_cases ho : Overlaps docs f G
    · rw [a1 hf ho, b1 hf ho]
    · by_cases hc : covered docs (G.erase f) = ∅
      · rw [a3 hf ho hc, b3 hf ho hc]
      · rw [a2 hf ho (Finset.nonempty_iff_ne_empty.2 hc), b2 hf ho (Finset.nonempty_iff_ne_empty.2 hc)]
  · by_cases ho : Overlaps docs f G
    · rw [a4 hf ho, b4 hf ho]
    · rw [a5 hf ho, b5 hf ho]

/-- Measuring in two orders of the group. -/
theorem measure_same (docs : Nat → Bitmap) (probe : Option Bitmap) (o1 o2 : Finset Nat → Finset Nat → List Nat)
    (h1 : ∀ G A, (o1 G A).Perm (Bitmap.elems G)) (h2 : ∀ G A, (o2 G A).Perm (Bitmap.elems G)) :
    SameMeasure (fun G A => measureContribution docs probe (o1 G A) A)
      (fun G A => measureContribution docs probe (o2 G A) A) := by
  intro G A
  by_cases hG : Bitmap.elems G = []
  · have e1 : o1 G A = [] := (hG ▸ h1 G A).eq_nil
    have e2 : o2 G A = [] := (hG ▸ h2 G A).eq_nil
    refine ⟨⟨0, [], [], [], []⟩, ⟨0, [], [], [], []⟩, ?_, ?_, rfl, fun _ => Iff.rfl⟩
    · simp [measureContribution, e1]
    · simp [measureContribution, e2]
  · have ne1 : o1 G A ≠ [] := fun e => hG ((e ▸ h1 G A).symm.eq_nil)
    have ne2 : o2 G A ≠ [] := fun e => hG ((e ▸ h2 G A).symm.eq_nil)
    have t1 : (o1 G A).toFinset = G := by rw [List.toFinset_eq_of_perm _ _ (h1 G A), Bitmap.elems_toFinset]
    have t2 : (o2 G A).toFinset = G := by rw [List.toFinset_eq_of_perm _ _ (h2 G A), Bitmap.elems_toFinset]
    obtain ⟨r1, a1, a2, a3, a4⟩ := measure_spec docs probe (o1 G A) ((h1 G A).nodup_iff.2 (Bitmap.elems_nodup G)) ne1 A
    obtain ⟨r2, b1, b2, b3, b4⟩ := measure_spec docs probe (o2 G A) ((h2 G A).nodup_iff.2 (Bitmap.elems_nodup G)) ne2 A
    rw [t1] at a2 a3 a4
    rw [t2] at b2 b3 b4
    have hkeys : ∀ f, f ∈ r1.scores.map (·.1) ↔ f ∈ r2.scores.map (·.1) := by
      intro f
      rw [a3, b3, List.mem_append, List.mem_append, (h1 G A).mem_iff, (h2 G A).mem_iff]
    refine ⟨r1, r2, a1, b1, by rw [a2, b2], ?_⟩
    intro x
    constructor
    · intro hx
      obtain ⟨y, hy, hxy⟩ := List.mem_map.1 ((hkeys x.1).1 (List.mem_map.2 ⟨x, hx, rfl⟩))
      have hsc : y.2 = x.2 := isScore_unique (hxy ▸ b4 y hy) (a4 x hx)
      have : y = x := Prod.ext hxy hsc
      exact this ▸ hy
    · intro hx
      obtain ⟨y, hy, hxy⟩ := List.mem_map.1 ((hkeys x.1).2 (List.mem_map.2 ⟨x, hx, rfl⟩))
      have hsc : y.2 = x.2 := isScore_unique (hxy ▸ a4 y hy) (b4 x hx)
      have : y = x := Prod.ext hxy hsc
      exact this ▸ hy

/-- Measuring in any order is complete. -/
theorem measure_order_complete (docs : Nat → Bitmap) (probe : Option Bitmap) (o : Finset Nat → Finset Nat → List Nat)
    (ho : ∀ G A, (o G A).Perm (Bitmap.elems G)) : Complete (fun G A => measureContribution docs probe (o G A) A) where
  total := fun G A => by
    obtain ⟨r, -, hr, -⟩ := measure_same docs probe o o ho ho G A
    exact ⟨r, hr⟩
  distinct := by
    intro G A r hr
    by_cases hG : o G A = []
    · simp only [measureContribution, hG, List.length_nil, if_true, Except.ok.injEq] at hr
      subst hr
      simp [Contribution.scores]
    · have hnd := (ho G A).nodup_iff.2 (Bitmap.elems_nodup G)
      obtain ⟨r', hr', -, hs, -⟩ := measure_spec docs probe (o G A) hnd hG A
      rw [show measureContribution docs probe (o G A) A = .ok r from hr] at hr'
      cases hr'
      rw [hs]
      refine List.nodup_append.2 ⟨hnd, Bitmap.elems_nodup _, ?_⟩
      intro a ha b hb hab
      subst hab
      have := Bitmap.mem_elems.1 hb
      rw [Finset.mem_sdiff] at this
      exact this.2 (by simpa using ha)
  scored := by
    intro G A r f hr
    obtain ⟨r1, r2, e1, e2, -, e3⟩ := measure_same docs probe o (fun G _ => Bitmap.elems G) ho (fun _ _ => List.Perm.refl _) G A
    have e1' : measureContribution docs probe (o G A) A = .ok r1 := e1
    have hr' : measureContribution docs probe (o G A) A = .ok r := hr
    rw [hr'] at e1'
    cases e1'
    rw [← (measureContribution_complete docs probe).scored G A r2 f e2]
    simp only [List.mem_map, e3]

/-- What the workers compute does not depend on their orders. -/
theorem workerScore_same (ws1 ws2 : Workers) (args : RefineArgs) (db : DB) (batches : Nat) (movable : Finset Nat) (i : Nat)
    (ids : List Int) (hids : ids.Nodup) (cf : Clustering) :
    SameScores (workerScore ws1 args db batches movable i ids cf) (workerScore ws2 args db batches movable i ids cf) :=
  findBestMoves_same (measure_order_complete _ _ _ (ws1.order_perm i)) (measure_order_complete _ _ _ (ws2.order_perm i))
    (measure_same _ _ _ _ (ws1.order_perm i) (ws2.order_perm i)) cf ids hids movable batches args.groupTopK

end
end Hyperreal
