import Verif.Lemmas.Moves
import Verif.Lemmas.ModelOps

/-! Lemmas about `findBestMoves`. -/

namespace Hyperreal
open Spec

/-- A way to measure scores that always succeeds and scores each feature of a non-empty cluster and each candidate exactly
once. -/
structure Complete {σ : Type} (measure : Finset Nat → Finset Nat → Except Err (Contribution σ)) : Prop where
  total : ∀ G A, ∃ r, measure G A = .ok r
  distinct : ∀ G A r, measure G A = .ok r → (r.scores.map (·.1)).Nodup
  scored : ∀ G A r f, measure G A = .ok r → (f ∈ r.scores.map (·.1) ↔ G.Nonempty ∧ (f ∈ G ∨ f ∈ A))

/-- The code's measurement is complete. -/
theorem measureContribution_complete (docs : Nat → Bitmap) (probe : Option Bitmap) :
    Complete (fun group adds => measureContribution docs probe (Bitmap.elems group) adds) where
  total := by
    intro G A
    by_cases hG : Bitmap.elems G = []
    · exact ⟨⟨0, [], [], [], []⟩, by simp [measureContribution, hG]⟩
    · obtain ⟨r, hr, -⟩ := measure_spec docs probe (Bitmap.elems G) (Bitmap.elems_nodup G) hG A
      exact ⟨r, hr⟩
  distinct := by
    intro G A r hr
    by_cases hG : Bitmap.elems G = []
    · simp only [measureContribution, hG, List.length_nil, if_true, Except.ok.injEq] at hr
      subst hr
      simp [Contribution.scores]
    · obtain ⟨r', hr', -, hs, -⟩ := measure_spec docs probe (Bitmap.elems G) (Bitmap.elems_nodup G) hG A
      rw [hr] at hr'
      cases hr'
      rw [hs]
      refine List.nodup_append.2 ⟨Bitmap.elems_nodup G, Bitmap.elems_nodup _, ?_⟩
      intro a ha b hb hab
      subst hab
      have := Bitmap.mem_elems.1 hb
      rw [Bitmap.elems_toFinset, Finset.mem_sdiff] at this
      exact this.2 (Bitmap.mem_elems.1 ha)
  scored := by
    intro G A r f hr
    by_cases hG : Bitmap.elems G = []
    · simp only [measureContribution, hG, List.length_nil, if_true, Except.ok.injEq] at hr
      subst hr
      rw [Bitmap.elems_eq_nil] at hG
      simp [Contribution.scores, hG]
    · obtain ⟨r', hr', -, hs, -⟩ := measure_spec docs probe (Bitmap.elems G) (Bitmap.elems_nodup G) hG A
      rw [hr] at hr'
      cases hr'
      have hne : G.Nonempty := Finset.nonempty_iff_ne_empty.2 (fun h => hG (Bitmap.elems_eq_nil.2 h))
      rw [hs, List.mem_append, Bitmap.mem_elems, Bitmap.mem_elems, Bitmap.elems_toFinset, Finset.mem_sdiff]
      constructor
      · rintro (h | h)
        · exact ⟨hne, Or.inl h⟩
        · exact ⟨hne, Or.inr h.1⟩
      · rintro ⟨-, h | h⟩
        · exact Or.inl h
        · by_cases hf : f ∈ G
          · exact Or.inl hf
          · exact Or.inr ⟨h, hf⟩

variable {σ : Type} [LinearOrder σ]

theorem tested_exists {κ : Type} [LinearOrder κ] {measure : Finset Nat → Finset Nat → Except Err (Contribution σ)}
    (hm : Complete measure) {cf checks : Dict κ (Finset Nat)} {f : Nat} {c : κ} {G A : Finset Nat}
    (hG : cf.get? c = some G) (hA : checks.get? c = some A) (hne : G.Nonempty) (hf : f ∈ G ∨ f ∈ A) :
    ∃ s, Tested measure cf checks f (toLex (s, c)) := by
  obtain ⟨r, hr⟩ := hm.total G (A \ G)
  have : f ∈ r.scores.map (·.1) := (hm.scored G (A \ G) r f hr).2 ⟨hne, by
    by_cases hfg : f ∈ G
    · exact Or.inl hfg
    · rcases hf with hf | hf
      · exact absurd hf hfg
      · exact Or.inr (Finset.mem_sdiff.2 ⟨hf, hfg⟩)⟩
  obtain ⟨x, hx, rfl⟩ := List.mem_map.1 this
  exact ⟨x.2, G, A, r, hG, hA, hr, hx⟩

theorem unionAll_spec : ∀ {l : List (Finset Nat)}, l ≠ [] → ∃ s, unionAll l = .ok s ∧ ∀ x, x ∈ s ↔ ∃ t ∈ l, x ∈ t := by
  intro l hl
  cases l with
  | nil => exact absurd rfl hl
  | cons a as =>
    refine ⟨_, rfl, ?_⟩
    intro x
    have key : ∀ (as : List (Finset Nat)) (a : Finset Nat), x ∈ as.foldl (· ∪ ·) a ↔ x ∈ a ∨ ∃ t ∈ as, x ∈ t := by
      intro as
      induction as with
      | nil => simp
      | cons b bs ih => intro a; rw [List.foldl_cons, ih]; simp [or_assoc]
    rw [key]; simp

theorem groupFeatures_spec {cf : Dict Int (Finset Nat)} {ks : List Int} (hne : ks ≠ []) (hk : ∀ c ∈ ks, c ∈ cf.keys) :
    ∃ s, groupFeatures cf ks = .ok s ∧ ∀ x, x ∈ s ↔ ∃ c ∈ ks, ∃ G, cf.get? c = some G ∧ x ∈ G := by
  obtain ⟨sets, hsets, h2⟩ := mapM_ok_of_forall (P := fun c G => cf.get? c = some G) cf.getE ks (by
    intro c hc
    obtain ⟨G, hG⟩ := (Dict.get?_isSome _ _).2 (hk c hc)
    exact ⟨G, Dict.getE_eq _ _ _ hG, hG⟩)
  have hne' : sets ≠ [] := by
    intro h
    subst h
    cases h2
    exact hne rfl
  obtain ⟨s, hs, hmem⟩ := unionAll_spec hne'
  refine ⟨s, by rw [groupFeatures, hsets]; exact hs, ?_⟩
  intro x
  rw [hmem]
  constructor
  · rintro ⟨t, ht, hx⟩
    obtain ⟨i, hi, rfl⟩ := List.getElem_of_mem ht
    have hlen := h2.length_eq
    have := (List.forall₂_iff_get.1 h2).2 i (by omega) hi
    exact ⟨ks[i]'(by omega), List.getElem_mem _, _, this, hx⟩
  · rintro ⟨c, hc, G, hG, hx⟩
    obtain ⟨i, hi, rfl⟩ := List.getElem_of_mem hc
    have hlen := h2.length_eq
    have := (List.forall₂_iff_get.1 h2).2 i hi (by omega)
    simp only [List.get_eq_getElem] at this
    rw [hG] at this
    cases this
    exact ⟨_, List.getElem_mem _, hx⟩

theorem get?_foldl_set {κ ν : Type} [DecidableEq κ] {P : κ → ν → Prop}
    (l : List (κ × ν)) : (∀ e ∈ l, P e.1 e.2) → ∀ (d : Dict κ ν), d.keys.Nodup →
    (∀ k v, d.get? k = some v → P k v) →
    (∀ k v, (l.foldl (fun d e => d.set e.1 e.2) d).get? k = some v → P k v) ∧
    (∀ k, k ∈ (l.foldl (fun d e => d.set e.1 e.2) d).keys ↔ k ∈ d.keys ∨ k ∈ l.map (·.1)) ∧
    (l.foldl (fun d e => d.set e.1 e.2) d).keys.Nodup := by
  induction l with
  | nil => intro _ d hn hd; exact ⟨hd, by simp, hn⟩
  | cons e l ih =>
    intro hl d hn hd
    obtain ⟨h1, h2, h3⟩ := ih (fun x hx => hl x (by simp [hx])) (d.set e.1 e.2) (Dict.nodup_set hn _ _) (by
      intro k v hv
      rw [Dict.get?_set] at hv
      by_cases hk : k = e.1
      · rw [if_pos hk] at hv
        cases hv
        rw [hk]
        exact hl e (by simp)
      · rw [if_neg hk] at hv
        exact hd k v hv)
    refine ⟨h1, ?_, h3⟩
    intro k
    rw [List.foldl_cons, h2, Dict.mem_keys_set, List.map_cons, List.mem_cons]
    tauto

theorem groupChecks_inner (f : Nat) (cs : List Int) : ∀ (d : Dict Int (Finset Nat)), d.keys.Nodup →
    (cs.foldl (fun checks c => Dict.set checks c (insert f ((checks.get? c).getD ∅))) d).keys.Nodup ∧
    ∀ c x, x ∈ ((cs.foldl (fun checks c => Dict.set checks c (insert f ((checks.get? c).getD ∅))) d).get? c).getD ∅ ↔
      x ∈ (d.get? c).getD ∅ ∨ (x = f ∧ c ∈ cs) := by
  induction cs with
  | nil => intro d hn; exact ⟨hn, by simp⟩
  | cons a cs ih =>
    intro d hn
    obtain ⟨h1, h2⟩ := ih (d.set a (insert f ((d.get? a).getD ∅))) (Dict.nodup_set hn _ _)
    refine ⟨h1, ?_⟩
    intro c x
    rw [List.foldl_cons, h2, Dict.get?_set]
    by_cases hc : c = a
    · subst hc
      simp only [if_true, Option.getD_some, Finset.mem_insert, List.mem_cons, true_or, and_true]
      tauto
    · simp only [hc, if_false, List.mem_cons, false_or]

theorem groupChecks_mid (f : Nat) (gs : List (σ ×ₗ List Int)) : ∀ (d : Dict Int (Finset Nat)), d.keys.Nodup →
    (gs.foldl (fun checks g => (ofLex g).2.foldl
      (fun checks c => Dict.set checks c (insert f ((checks.get? c).getD ∅))) checks) d).keys.Nodup ∧
    ∀ c x, x ∈ ((gs.foldl (fun checks g => (ofLex g).2.foldl
      (fun checks c => Dict.set checks c (insert f ((checks.get? c).getD ∅))) checks) d).get? c).getD ∅ ↔
      x ∈ (d.get? c).getD ∅ ∨ (x = f ∧ ∃ g ∈ gs, c ∈ (ofLex g).2) := by
  induction gs with
  | nil => intro d hn; exact ⟨hn, by simp⟩
  | cons g gs ih =>
    intro d hn
    obtain ⟨i1, i2⟩ := groupChecks_inner f (ofLex g).2 d hn
    obtain ⟨h1, h2⟩ := ih _ i1
    refine ⟨h1, ?_⟩
    intro c x
    rw [List.foldl_cons, h2, i2]
    simp only [List.mem_cons, exists_eq_or_imp]
    tauto

theorem groupChecks_spec (movable : Finset Nat) (best : Dict Nat (List (σ ×ₗ List Int))) :
    (groupChecks movable best).keys.Nodup ∧
    ∀ c x, x ∈ ((groupChecks movable best).get? c).getD ∅ ↔
      x ∈ movable ∧ ∃ gs, (x, gs) ∈ best ∧ ∃ g ∈ gs, c ∈ (ofLex g).2 := by
  have key : ∀ (d : Dict Int (Finset Nat)), d.keys.Nodup →
      (best.foldl (fun checks e =>
        if e.1 ∈ movable then
          e.2.foldl (fun checks g => (ofLex g).2.foldl (fun checks c =>
            Dict.set checks c (insert e.1 ((checks.get? c).getD ∅))) checks) checks
        else checks) d).keys.Nodup ∧
      ∀ c x, x ∈ ((best.foldl (fun checks e =>
        if e.1 ∈ movable then
          e.2.foldl (fun checks g => (ofLex g).2.foldl (fun checks c =>
            Dict.set checks c (insert e.1 ((checks.get? c).getD ∅))) checks) checks
        else checks) d).get? c).getD ∅ ↔
        x ∈ (d.get? c).getD ∅ ∨ (x ∈ movable ∧ ∃ gs, (x, gs) ∈ best ∧ ∃ g ∈ gs, c ∈ (ofLex g).2) := by
    induction best with
    | nil => intro d hn; exact ⟨hn, by simp⟩
    | cons e best ih =>
      intro d hn
      rw [List.foldl_cons]
      by_cases he : e.1 ∈ movable
      · rw [if_pos he]
        obtain ⟨i1, i2⟩ := groupChecks_mid e.1 e.2 d hn
        obtain ⟨h1, h2⟩ := ih _ i1
        refine ⟨h1, ?_⟩
        intro c x
        rw [h2, i2]
        simp only [List.mem_cons]
        constructor
        · rintro ((h | ⟨rfl, g, hg, hc⟩) | ⟨h1, gs, h2, h3⟩)
          · exact Or.inl h
          · exact Or.inr ⟨he, e.2, Or.inl rfl, g, hg, hc⟩
          · exact Or.inr ⟨h1, gs, Or.inr h2, h3⟩
        · rintro (h | ⟨h1, gs, h2 | h2, h3⟩)
          · exact Or.inl (Or.inl h)
          · left; right
            rw [Prod.ext_iff] at h2
            refine ⟨h2.1, ?_⟩
            rw [← h2.2]; exact h3
          · exact Or.inr ⟨h1, gs, h2, h3⟩
      · rw [if_neg he]
        obtain ⟨h1, h2⟩ := ih d hn
        refine ⟨h1, ?_⟩
        intro c x
        rw [h2]
        simp only [List.mem_cons]
        constructor
        · rintro (h | ⟨h1, gs, h2, h3⟩)
          · exact Or.inl h
          · exact Or.inr ⟨h1, gs, Or.inr h2, h3⟩
        · rintro (h | ⟨h1, gs, h2 | h2, h3⟩)
          · exact Or.inl h
          · exfalso
            rw [Prod.ext_iff] at h2
            exact he (h2.1 ▸ h1)
          · exact Or.inr ⟨h1, gs, h2, h3⟩
  obtain ⟨h1, h2⟩ := key [] (by simp [Dict.keys])
  refine ⟨h1, ?_⟩
  intro c x
  have := h2 c x
  simp only [Dict.get?_nil, Option.getD_none, Finset.notMem_empty, false_or] at this
  exact this

theorem groupChecks_keys (movable : Finset Nat) (best : Dict Nat (List (σ ×ₗ List Int))) (c : Int) :
    c ∈ (groupChecks movable best).keys → ∃ x ∈ movable, ∃ gs, (x, gs) ∈ best ∧ ∃ g ∈ gs, c ∈ (ofLex g).2 := by
  intro hc
  suffices h : ∃ x, x ∈ ((groupChecks movable best).get? c).getD ∅ by
    obtain ⟨x, hx⟩ := h
    obtain ⟨h1, h2⟩ := ((groupChecks_spec movable best).2 c x).1 hx
    exact ⟨x, h1, h2⟩
  -- every entry is nonempty
  have inner : ∀ (f : Nat) (cs : List Int) (d : Dict Int (Finset Nat)), (∀ c s, d.get? c = some s → s.Nonempty) →
      ∀ c s, (cs.foldl (fun checks c => Dict.set checks c (insert f ((checks.get? c).getD ∅))) d).get? c = some s →
        s.Nonempty := by
    intro f cs
    induction cs with
    | nil => intro d h; exact h
    | cons a cs ih =>
      intro d h
      rw [List.foldl_cons]
      apply ih
      intro c s hs
      rw [Dict.get?_set] at hs
      by_cases hca : c = a
      · rw [if_pos hca] at hs
        cases hs
        exact ⟨f, by simp⟩
      · rw [if_neg hca] at hs; exact h c s hs
  have mid : ∀ (f : Nat) (gs : List (σ ×ₗ List Int)) (d : Dict Int (Finset Nat)), (∀ c s, d.get? c = some s → s.Nonempty) →
      ∀ c s, (gs.foldl (fun checks g => (ofLex g).2.foldl
        (fun checks c => Dict.set checks c (insert f ((checks.get? c).getD ∅))) checks) d).get? c = some s →
        s.Nonempty := by
    intro f gs
    induction gs with
    | nil => intro d h; exact h
    | cons g gs ih => intro d h; rw [List.foldl_cons]; exact ih _ (inner f _ d h)
  have outer : ∀ (best : Dict Nat (List (σ ×ₗ List Int))) (d : Dict Int (Finset Nat)),
      (∀ c s, d.get? c = some s → s.Nonempty) →
      ∀ c s, (best.foldl (fun checks e =>
        if e.1 ∈ movable then
          e.2.foldl (fun checks g => (ofLex g).2.foldl (fun checks c =>
            Dict.set checks c (insert e.1 ((checks.get? c).getD ∅))) checks) checks
        else checks) d).get? c = some s → s.Nonempty := by
    intro best
    induction best with
    | nil => intro d h; exact h
    | cons e best ih =>
      intro d h
      rw [List.foldl_cons]
      apply ih
      by_cases he : e.1 ∈ movable
      · rw [if_pos he]; exact mid e.1 e.2 d h
      · rw [if_neg he]; exact h
  obtain ⟨s, hs⟩ := (Dict.get?_isSome _ _).2 hc
  obtain ⟨x, hx⟩ := outer best [] (by simp) c s hs
  exact ⟨x, by rw [hs]; exact hx⟩

end Hyperreal
