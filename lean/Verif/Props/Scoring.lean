import Verif.Lemmas.FindBest
import Verif.Spec.Greedy

/-!
# Properties of the scoring of moves (C29, C30)
-/

namespace Hyperreal.Props
open Spec

/-- **C29.** For every index (`docs`), probe query, cluster (`group`, listed in any order) and set of candidates: the
measurement succeeds (in particular no division by zero), returns the objective of the cluster, scores exactly the
features of the cluster and the candidates, each once, and each score is the documented one (`IsScore`). -/
theorem contributions_exact (docs : Nat → Bitmap) (probe : Option Bitmap) (group : List Nat) (hn : group.Nodup)
    (hne : group ≠ []) (adds : Finset Nat) :
    ∃ r, measureContribution docs probe group adds = .ok r ∧
      r.objective = objective (seen docs probe) group.toFinset ∧
      (r.scores.map (·.1)).Nodup ∧
      (∀ f, f ∈ r.scores.map (·.1) ↔ f ∈ group ∨ f ∈ adds) ∧
      ∀ x ∈ r.scores, IsScore (seen docs probe) group.toFinset x.1 x.2 := by
  obtain ⟨r, h1, h2, h3, h4⟩ := measure_spec docs probe group hn hne adds
  refine ⟨r, h1, h2, ?_, ?_, h4⟩
  · rw [h3]
    refine List.nodup_append.2 ⟨hn, Bitmap.elems_nodup _, ?_⟩
    intro a ha b hb hab
    subst hab
    have := Bitmap.mem_elems.1 hb
    rw [Finset.mem_sdiff] at this
    exact this.2 (by simpa using ha)
  · intro f
    rw [h3, List.mem_append, Bitmap.mem_elems, Finset.mem_sdiff, List.mem_toFinset]
    by_cases hf : f ∈ group <;> simp [hf]

/-- **C29, empty clusters.** An empty cluster has objective 0 and scores nothing. -/
theorem contributions_empty (docs : Nat → Bitmap) (probe : Option Bitmap) (adds : Finset Nat) :
    measureContribution docs probe [] adds = .ok ⟨0, [], [], [], []⟩ := rfl

/-- **C29, range.** The objective of a cluster is never negative. -/
theorem objective_nonneg (docs : Nat → Bitmap) (G : Finset Nat) : 0 ≤ objective docs G := by
  unfold objective
  rw [sub_nonneg]
  by_cases hG : G.card = 0
  · have : G = ∅ := Finset.card_eq_zero.1 hG
    subst this
    simp [hits]
  · have h1 : (0 : Rat) < (covered docs G).card + G.card := by
      have : 0 < G.card := Nat.pos_of_ne_zero hG
      positivity
    apply div_le_div_of_nonneg_left (by positivity) h1
    have := covered_card_le docs G
    have h2 : ((covered docs G).card : Rat) ≤ (hits docs G : Rat) := by exact_mod_cast this
    linarith

/-- The documents of a small index: features 1 and 2 overlap, feature 3 is apart. -/
def demoDocs : Nat → Bitmap
  | 1 => {0, 1, 2}
  | 2 => {1, 2, 3}
  | 3 => {7}
  | 4 => {2, 7}
  | _ => ∅

/-- The measurement on a concrete cluster, with an overlapping pair, a loner, and a candidate. -/
example : (measureContribution demoDocs none [1, 2, 3] {2, 4, 5}).map (fun r => (r.objective, r.scores)) =
    .ok ((7 : Rat) / 8 - 7 / 10,
      [(1, 7 / 8 - 7 / 10 - (4 / 6 - 4 / 6)), (2, 7 / 8 - 7 / 10 - (4 / 6 - 4 / 6)), (3, -1),
       (4, 9 / 9 - 9 / 13 - (7 / 8 - 7 / 10)), (5, -1)]) := by decide +kernel

/-- With a probe query only the probed documents count. -/
example : (measureContribution demoDocs (some {1, 7}) [1, 2] {3}).map (fun r => (r.objective, r.scores)) =
    .ok ((2 : Rat) / 3 - 2 / 4, [(1, 2 / 3 - 2 / 4 - (1 / 2 - 1 / 2)), (2, 2 / 3 - 2 / 4 - (1 / 2 - 1 / 2)), (3, -1)]) := by
  decide +kernel

/-- **C30, selection.** For any measured scores: the list returned for a feature is the `top_k` greatest of the
`(score, cluster)` pairs measured for it, in descending order, and every measured feature has one. -/
theorem proposed_moves_are_best {σ κ : Type} [LinearOrder σ] [LinearOrder κ]
    (measure : Finset Nat → Finset Nat → Except Err (Contribution σ))
    (hmeas : ∀ G A r, measure G A = .ok r → (r.scores.map (·.1)).Nodup)
    (cf checks : Dict κ (Finset Nat)) (hn : checks.keys.Nodup) (topK : Nat) (s : Scores σ κ)
    (h : scoreProposedMoves measure cf checks topK = .ok s) :
    (∀ f L, s.2.get? f = some L → IsTop topK (Tested measure cf checks f) L) ∧
    (∀ f, (∃ L, s.2.get? f = some L) ↔ ∃ x, Tested measure cf checks f x) := by
  obtain ⟨h1, h2, -, -⟩ := scoreProposedMoves_spec hmeas hn h
  refine ⟨fun f L hL => (h1 f L hL).1, fun f => ⟨?_, h2 f⟩⟩
  rintro ⟨L, hL⟩
  exact (h1 f L hL).2

/-- The exact score of feature `f` for the cluster with the features `G`, as the code measures it. -/
def codeScore (docs : Nat → Bitmap) (probe : Option Bitmap) (G : Finset Nat) (f : Nat) (s : Rat) : Prop :=
  G.Nonempty ∧ IsScore (seen docs probe) G f s

/-- The documented score is unique. -/
theorem isScore_unique (docs : Nat → Bitmap) (G : Finset Nat) (f : Nat) (s t : Rat) (hs : IsScore docs G f s)
    (ht : IsScore docs G f t) : s = t := by
  obtain ⟨s1, s2, s3, s4, s5⟩ := hs
  obtain ⟨t1, t2, t3, t4, t5⟩ := ht
  by_cases hf : f ∈ G
  · by_cases ho : Overlaps docs f G
    · rw [s1 hf ho, t1 hf ho]
    · rcases Finset.eq_empty_or_nonempty (covered docs (G.erase f)) with hc | hc
      · rw [s3 hf ho hc, t3 hf ho hc]
      · rw [s2 hf ho hc, t2 hf ho hc]
  · by_cases ho : Overlaps docs f G
    · rw [s4 hf ho, t4 hf ho]
    · rw [s5 hf ho, t5 hf ho]

theorem measure_sound (docs : Nat → Bitmap) (probe : Option Bitmap) (G A : Finset Nat) (r : Contribution Rat)
    (h : measureContribution docs probe (Bitmap.elems G) A = .ok r) (x : Nat × Rat) (hx : x ∈ r.scores) :
    codeScore docs probe G x.1 x.2 := by
  by_cases hG : Bitmap.elems G = []
  · simp only [measureContribution, hG, List.length_nil, if_true, Except.ok.injEq] at h
    subst h
    simp [Contribution.scores] at hx
  · obtain ⟨r', hr', -, -, h4⟩ := measure_spec docs probe (Bitmap.elems G) (Bitmap.elems_nodup G) hG A
    rw [h] at hr'
    cases hr'
    have := h4 x hx
    rw [Bitmap.elems_toFinset] at this
    exact ⟨Finset.nonempty_iff_ne_empty.2 (fun h => hG (Bitmap.elems_eq_nil.2 h)), this⟩

/-- What the measurement of a non-empty cluster scores, and how. -/
theorem measured_iff (docs : Nat → Bitmap) (probe : Option Bitmap) (G M : Finset Nat) (f : Nat) (hf : f ∈ M) (s : Rat) :
    (∃ r, measureContribution docs probe (Bitmap.elems G) (M \ G) = .ok r ∧ (f, s) ∈ r.scores) ↔
      G.Nonempty ∧ IsScore (seen docs probe) G f s := by
  have hC := measureContribution_complete docs probe
  constructor
  · rintro ⟨r, hr, hfr⟩
    exact measure_sound docs probe G _ r hr _ hfr
  · rintro ⟨hG, hs⟩
    obtain ⟨r, hr⟩ := hC.total G (M \ G)
    have : f ∈ r.scores.map (·.1) := (hC.scored G (M \ G) r f hr).2 ⟨hG, by
      by_cases hfG : f ∈ G
      · exact .inl hfG
      · exact .inr (Finset.mem_sdiff.2 ⟨hf, hfG⟩)⟩
    obtain ⟨x, hx, rfl⟩ := List.mem_map.1 this
    have := measure_sound docs probe G _ r hr x hx
    rw [isScore_unique _ _ _ _ _ hs this.2]
    exact ⟨r, hr, hx⟩

/-- The objective that is measured. -/
theorem measured_objective (docs : Nat → Bitmap) (probe : Option Bitmap) (G A : Finset Nat) (r : Contribution Rat)
    (h : measureContribution docs probe (Bitmap.elems G) A = .ok r) : r.objective = objective (seen docs probe) G := by
  by_cases hG : Bitmap.elems G = []
  · simp only [measureContribution, hG, List.length_nil, if_true, Except.ok.injEq] at h
    subst h
    rw [Bitmap.elems_eq_nil] at hG
    subst hG
    simp [objective, hits]
  · obtain ⟨r', hr', h2, -⟩ := measure_spec docs probe (Bitmap.elems G) (Bitmap.elems_nodup G) hG A
    rw [h] at hr'
    cases hr'
    rw [h2, Bitmap.elems_toFinset]

/-- **C30, the search for moves.** For every index, clustering, shuffle of the clusters, set of movable features, number of
groups and `group_test_top_k ≥ 1` the search succeeds and proposes for every movable feature exactly one move: to
the best of the clusters it was compared with, with its exact score there.  Without group testing, and with one group, it was
compared with all clusters that have features; with group testing with the clusters of its best groups (`TestedIn`).  The
objectives reported are exact. -/
theorem every_movable_feature_gets_its_best_move (docs : Nat → Bitmap) (probe : Option Bitmap)
    (cf : Dict Int (Finset Nat)) (hn : cf.keys.Nodup) (ids : List Int) (hp : ids.Perm cf.keys)
    (movable : Finset Nat) (hmov : ∀ f ∈ movable, ∃ c G, cf.get? c = some G ∧ f ∈ G) (hm : movable.Nonempty)
    (batches topK : Nat) (hk : 1 ≤ topK) :
    let p : Placement := ⟨cf.keys.toFinset, fun c => (cf.get? c).getD ∅⟩
    ∃ (s : Scores Rat Int) (tested : Nat → Finset Int),
      findBestMoves (fun G A => measureContribution docs probe (Bitmap.elems G) A) cf ids movable batches topK = .ok s ∧
      TestedIn (seen docs probe) p batches topK movable tested ∧
      (∀ f ∈ movable, (tested f).Nonempty ∧ ∀ z ∈ tested f, z ∈ p.clusters ∧ (p.members z).Nonempty) ∧
      (∀ f ∈ movable, ∃ (score : Rat) (to_ : Int), s.2.get? f = some [toLex (score, to_)] ∧
        IsScore (seen docs probe) (p.members to_) f score ∧ BestAmong (seen docs probe) p (tested f) f to_) ∧
      (∀ c o, s.1.get? c = some o → c ∈ p.clusters ∧ o = objective (seen docs probe) (p.members c)) := by
  intro p
  have hC := measureContribution_complete docs probe
  have hne : cf ≠ [] := by
    rintro rfl
    obtain ⟨f, hf⟩ := hm
    obtain ⟨c, G, hG, -⟩ := hmov f hf
    simp at hG
  obtain ⟨s, checks, h1, h2, h3, h4, h5, h6, h7, h8⟩ := findBestMoves_spec hC hn hne hp movable hmov batches topK (.inl hk)
  obtain ⟨t1, t2, t3, -⟩ := scoreProposedMoves_spec hC.distinct h3 h2
  have hcard : p.clusters.card = cf.length := by
    rw [List.toFinset_card_of_nodup hn, ← Dict.length_eq_keys]
  have hpm : ∀ c G, cf.get? c = some G → p.members c = G := fun c G h => by simp [p, h]
  have hpc : ∀ c, c ∈ p.clusters ↔ ∃ G, cf.get? c = some G := fun c => by
    rw [Dict.get?_isSome]; simp [p]
  classical
  let T : Nat → Finset Int := fun f => cf.keys.toFinset.filter (fun c => ∃ sc, Tested (fun G A => measureContribution docs probe
    (Bitmap.elems G) A) cf checks f (toLex (sc, c)))
  have hT : ∀ f c, c ∈ T f ↔ ∃ sc, Tested (fun G A => measureContribution docs probe
      (Bitmap.elems G) A) cf checks f (toLex (sc, c)) := by
    intro f c
    simp only [T, Finset.mem_filter, List.mem_toFinset, and_iff_right_iff_imp]
    rintro ⟨sc, G, A, r, hG, -⟩
    exact (Dict.get?_isSome _ _).1 ⟨G, hG⟩
  have hsound : ∀ f sc c, Tested (fun G A => measureContribution docs probe (Bitmap.elems G) A) cf checks f (toLex (sc, c)) →
      c ∈ p.clusters ∧ (p.members c).Nonempty ∧ IsScore (seen docs probe) (p.members c) f sc := by
    rintro f sc c ⟨G, A, r, hG, -, hr, hfr⟩
    have := measure_sound docs probe G _ r hr _ hfr
    rw [hpm c G hG]
    exact ⟨(hpc c).2 ⟨G, hG⟩, this.1, this.2⟩
  -- a cluster that has features and is to be checked for `f` is tested
  have htest : ∀ f c A, checks.get? c = some A → f ∈ A → (p.members c).Nonempty → c ∈ T f := by
    intro f c A hA hfA hne'
    obtain ⟨G, hG⟩ := (hpc c).1 (by rw [List.mem_toFinset]; exact h4 c ((Dict.get?_isSome _ _).1 ⟨A, hA⟩))
    rw [hpm c G hG] at hne'
    exact (hT f c).2 (tested_exists hC hG hA hne' (Or.inr hfA))
  refine ⟨s, T, h1, ⟨?_, ?_⟩, ?_, ?_, ?_⟩
  · intro hd f hf c
    constructor
    · intro hc
      obtain ⟨sc, hsc⟩ := (hT f c).1 hc
      obtain ⟨e1, e2, -⟩ := hsound f sc c hsc
      exact ⟨e1, e2⟩
    · rintro ⟨hc, hne'⟩
      have hck : c ∈ cf.keys := List.mem_toFinset.1 hc
      rcases hd with hd | hd
      · obtain ⟨A, hA, hfA⟩ := h7 hd f (Or.inl hf) c hck
        exact htest f c A hA hfA hne'
      · obtain ⟨A, hA, hA2⟩ := h6 (.inr (by omega)) c hck
        exact htest f c A hA ((hA2 f).2 (Or.inl hf)) hne'
  · intro hb0 hb2
    obtain ⟨groups, M, g1, g2, g3, g4, g5⟩ := h8 (by omega)
    refine ⟨groups, g1, g2.nodup_iff.2 hn, fun c => by rw [g2.mem_iff]; simp [p], by rw [hcard]; exact g3, ?_⟩
    intro f hf
    have hfM : f ∈ M := (g4 f).2 (Or.inl hf)
    obtain ⟨L, l1, l2⟩ := g5 f hfM
    have hu : ∀ g, groupUnion cf g = p.union g := fun g => rfl
    have hiff : ∀ x : Rat ×ₗ List Int, ((ofLex x).2 ∈ groups ∧ ∃ r, measureContribution docs probe
        (Bitmap.elems (groupUnion cf (ofLex x).2)) (M \ groupUnion cf (ofLex x).2) = .ok r ∧ (f, (ofLex x).1) ∈ r.scores) ↔
        ((ofLex x).2 ∈ groups ∧ (p.union (ofLex x).2).Nonempty ∧ IsScore (seen docs probe) (p.union (ofLex x).2) f (ofLex x).1) := by
      intro x
      rw [hu, measured_iff docs probe _ M f hfM]
    refine ⟨L, ⟨l1.descending, fun x hx => (hiff x).1 (l1.members x hx), l1.size, fun x hx => l1.best x ((hiff x).2 hx)⟩, ?_, ?_⟩
    · intro g hg c hc hne'
      obtain ⟨A, hA, hfA⟩ := (l2 c).2 ⟨g, hg, hc⟩
      exact htest f c A hA hfA hne'
    · intro c hc
      obtain ⟨sc, G, A, r, hG, hA, hr, hfr⟩ := (hT f c).1 hc
      obtain ⟨-, hfGA⟩ := (hC.scored G (A \ G) r f hr).1 (List.mem_map.2 ⟨_, hfr, rfl⟩)
      rcases hfGA with h | h
      · exact .inl (by rw [hpm c G hG]; exact h)
      · exact .inr ((l2 c).1 ⟨A, hA, (Finset.mem_sdiff.1 h).1⟩)
  · intro f hf
    obtain ⟨c, G, A, hG, hGne, hA, hfA⟩ := h5 f (Or.inl hf)
    refine ⟨⟨c, htest f c A hA hfA (by rw [hpm c G hG]; exact hGne)⟩, fun z hz => ?_⟩
    obtain ⟨sc, hsc⟩ := (hT f z).1 hz
    obtain ⟨e1, e2, -⟩ := hsound f sc z hsc
    exact ⟨e1, e2⟩
  · intro f hf
    obtain ⟨c, G, A, hG, hGne, hA, hfA⟩ := h5 f (Or.inl hf)
    obtain ⟨sc, hsc⟩ := tested_exists hC hG hA hGne (Or.inr hfA)
    obtain ⟨L, hL⟩ := t2 f ⟨_, hsc⟩
    have htop := (t1 f L hL).1
    -- the list is a singleton
    obtain ⟨y, rfl⟩ : ∃ y, L = [y] := by
      have hlen := htop.size
      cases L with
      | nil =>
        have := (htop.best _ hsc (by simp)).1
        simp at this
      | cons y t =>
        cases t with
        | nil => exact ⟨y, rfl⟩
        | cons z t => simp at hlen
    have hy := htop.members y (by simp)
    obtain ⟨-, -, hys⟩ := hsound f (ofLex y).1 (ofLex y).2 hy
    refine ⟨(ofLex y).1, (ofLex y).2, hL, hys, (hT f _).2 ⟨(ofLex y).1, hy⟩, (ofLex y).1, hys, ?_⟩
    intro c' hc' sc2 hsc2
    obtain ⟨sc', hsc'⟩ := (hT f c').1 hc'
    obtain ⟨-, -, hcs'⟩ := hsound f _ _ hsc'
    have e : sc2 = sc' := isScore_unique _ _ _ _ _ hsc2 hcs'
    subst e
    by_cases hyc : toLex (sc2, c') = y
    · right; rw [← hyc]; exact ⟨rfl, le_refl _⟩
    · have := (htop.best _ hsc' (by simpa using hyc)).2 y (by simp)
      rw [Prod.Lex.lt_iff] at this
      rcases this with h | ⟨h, h'⟩
      · exact Or.inl h
      · exact Or.inr ⟨h, le_of_lt h'⟩
  · intro c o ho
    obtain ⟨G, A, r, hG, -, hr, rfl⟩ := (t3 c o).1 ho
    rw [hpm c G hG]
    exact ⟨(hpc c).2 ⟨G, hG⟩, measured_objective docs probe G _ r hr⟩

/-- Four clusters, two groups: the search on concrete data, with and without group testing. -/
example : (findBestMoves (fun G A => measureContribution demoDocs none (Bitmap.elems G) A)
      [(0, {1}), (5, {2}), (6, {3}), (9, {4})] [6, 0, 9, 5] {1, 2, 3, 4} 0 1).map
      (fun s => ([1, 2, 3, 4].map (fun f => (s.2.get? f).map (·.map (fun x => (ofLex x).2))))) =
    .ok [some [5], some [0], some [9], some [6]] := by decide +kernel
example : (findBestMoves (fun G A => measureContribution demoDocs none (Bitmap.elems G) A)
      [(0, {1}), (5, {2}), (6, {3}), (9, {4})] [6, 0, 9, 5] {1, 2, 3, 4} 2 1).map
      (fun s => ([1, 2, 3, 4].map (fun f => (s.2.get? f).map (·.map (fun x => (ofLex x).2))))) =
    .ok [some [5], some [0], some [9], some [6]] := by decide +kernel

end Hyperreal.Props
