import Verif.Model.Refine
import Verif.Lemmas.FindBest

/-! Lemmas about the moves of one refinement iteration. -/

namespace Hyperreal
open Spec

/-- Feature `f` is in cluster `c`. -/
def In (cf : Clustering) (c : Int) (f : Nat) : Prop := ∃ G, cf.get? c = some G ∧ f ∈ G

/-- The two maps agree, every feature of `U` is in exactly one cluster, and no other feature is in any. -/
structure Sound (U : Finset Nat) (st : Assignment) : Prop where
  nodup : st.cf.keys.Nodup
  agree : ∀ f c, st.fc.get? f = some c ↔ In st.cf c f
  all : ∀ f, f ∈ U ↔ ∃ c, st.fc.get? f = some c

theorem Sound.key_of {U : Finset Nat} {st : Assignment} (h : Sound U st) {f : Nat} {c : Int} (hf : st.fc.get? f = some c) :
    c ∈ st.cf.keys := by
  obtain ⟨G, hG, -⟩ := (h.agree f c).1 hf
  exact (Dict.get?_isSome _ _).1 ⟨G, hG⟩

theorem In.key {cf : Clustering} {c : Int} {f : Nat} (h : In cf c f) : c ∈ cf.keys := by
  obtain ⟨G, hG, -⟩ := h
  exact (Dict.get?_isSome _ _).1 ⟨G, hG⟩

/-- The effect of a successful move. -/
theorem doMove_spec {U : Finset Nat} {st st' : Assignment} (hs : Sound U st) {f : Nat} {cur dst : Int}
    (hcur : st.fc.get? f = some cur) (h : doMove f cur dst st = .ok st') :
    Sound U st' ∧ st'.cf.keys = st.cf.keys ∧ dst ∈ st.cf.keys ∧
    (∀ g, st'.fc.get? g = if g = f then some dst else st.fc.get? g) ∧
    (∀ c G, st.cf.get? c = some G → ∃ G', st'.cf.get? c = some G' ∧
      G' = if c = dst then insert f (G.erase f) else G.erase f) := by
  unfold doMove at h
  obtain ⟨A, hA, h⟩ := bind_ok h
  obtain ⟨B, hB, h⟩ := bind_ok h
  simp only [pure, Except.pure, Except.ok.injEq] at h
  subst h
  rw [Dict.getE_ok_iff] at hA hB
  have hcurk : cur ∈ st.cf.keys := hs.key_of hcur
  have hdst : dst ∈ st.cf.keys := by
    have : dst ∈ (st.cf.set cur (A.erase f)).keys := (Dict.get?_isSome _ _).1 ⟨B, hB⟩
    rw [Dict.mem_keys_set] at this
    rcases this with rfl | h
    · exact hcurk
    · exact h
  have k1 : (st.cf.set cur (A.erase f)).keys = st.cf.keys := by rw [Dict.keys_set, if_pos hcurk]
  have k2 : ((st.cf.set cur (A.erase f)).set dst (insert f B)).keys = st.cf.keys := by
    rw [Dict.keys_set, k1, if_pos hdst]
  have honly : ∀ c G, st.cf.get? c = some G → f ∈ G → c = cur := by
    intro c G hG hf
    have := (hs.agree f c).2 ⟨G, hG, hf⟩
    rw [hcur] at this
    exact (Option.some.inj this).symm
  have hget : ∀ c G, st.cf.get? c = some G → ∃ G',
      ((st.cf.set cur (A.erase f)).set dst (insert f B)).get? c = some G' ∧
      G' = if c = dst then insert f (G.erase f) else G.erase f := by
    intro c G hG
    rw [Dict.get?_set, Dict.get?_set]
    rw [Dict.get?_set] at hB
    by_cases hcd : c = dst
    · rw [if_pos hcd, if_pos hcd]
      refine ⟨_, rfl, ?_⟩
      subst hcd
      by_cases hcc : c = cur
      · rw [if_pos hcc] at hB
        cases hB
        subst hcc
        rw [hA] at hG; cases hG
        rfl
      · rw [if_neg hcc, hG] at hB
        cases hB
        have : f ∉ B := fun hf => hcc (honly c B hG hf)
        rw [Finset.erase_eq_of_notMem this]
    · rw [if_neg hcd, if_neg hcd]
      by_cases hcc : c = cur
      · rw [if_pos hcc]
        subst hcc
        rw [hA] at hG; cases hG
        exact ⟨_, rfl, rfl⟩
      · rw [if_neg hcc]
        refine ⟨G, hG, ?_⟩
        have : f ∉ G := fun hf => hcc (honly c G hG hf)
        rw [Finset.erase_eq_of_notMem this]
  have hfc : ∀ g, (st.fc.set f dst).get? g = if g = f then some dst else st.fc.get? g := fun g => Dict.get?_set _ _ _ _
  refine ⟨⟨?_, ?_, ?_⟩, k2, hdst, hfc, hget⟩
  · simp only; rw [k2]; exact hs.nodup
  · intro g c
    simp only
    rw [hfc]
    constructor
    · intro hg
      by_cases hgf : g = f
      · rw [if_pos hgf] at hg
        cases hg
        obtain ⟨G, hG⟩ := (Dict.get?_isSome _ _).2 hdst
        obtain ⟨G', h1, h2⟩ := hget dst G hG
        exact ⟨G', h1, by rw [h2, if_pos rfl, hgf]; simp⟩
      · rw [if_neg hgf] at hg
        obtain ⟨G, hG, hgG⟩ := (hs.agree g c).1 hg
        obtain ⟨G', h1, h2⟩ := hget c G hG
        refine ⟨G', h1, ?_⟩
        rw [h2]
        split <;> simp [hgf, hgG]
    · rintro ⟨G', hG', hgG'⟩
      have hck : c ∈ st.cf.keys := by rw [← k2]; exact (Dict.get?_isSome _ _).1 ⟨G', hG'⟩
      obtain ⟨G, hG⟩ := (Dict.get?_isSome _ _).2 hck
      obtain ⟨G2, h1, h2⟩ := hget c G hG
      rw [hG'] at h1; cases h1
      by_cases hgf : g = f
      · rw [if_pos hgf]
        subst hgf
        by_cases hcd : c = dst
        · rw [hcd]
        · rw [h2, if_neg hcd] at hgG'; simp at hgG'
      · rw [if_neg hgf]
        refine (hs.agree g c).2 ⟨G, hG, ?_⟩
        rw [h2] at hgG'
        split at hgG' <;> simpa [hgf] using hgG'
  · intro g
    simp only
    rw [hs.all]
    by_cases hgf : g = f
    · subst hgf
      simp only [hfc, if_pos]
      exact ⟨fun _ => ⟨dst, by simp⟩, fun _ => ⟨cur, hcur⟩⟩
    · rw [hfc, if_neg hgf]

theorem doMove_total {st : Assignment} {f : Nat} {cur dst : Int} (hc : cur ∈ st.cf.keys) (hd : dst ∈ st.cf.keys) :
    ∃ st', doMove f cur dst st = .ok st' := by
  unfold doMove
  obtain ⟨A, hA⟩ := (Dict.get?_isSome _ _).2 hc
  rw [Dict.getE_eq _ _ _ hA]
  simp only [bind, Except.bind]
  have : dst ∈ (st.cf.set cur (A.erase f)).keys := by rw [Dict.mem_keys_set]; exact Or.inr hd
  obtain ⟨B, hB⟩ := (Dict.get?_isSome _ _).2 this
  rw [Dict.getE_eq _ _ _ hB]
  exact ⟨_, rfl⟩

theorem choice_mem {l : List Int} {i : Nat} {x : Int} (h : choice l i = .ok x) : x ∈ l := by
  unfold choice at h
  split at h
  · rename_i y hy
    cases h
    exact List.mem_of_getElem? hy
  · cases h

theorem choice_total {l : List Int} (hl : l ≠ []) (i : Nat) : ∃ x, choice l i = .ok x := by
  unfold choice
  have hpos : 0 < l.length := List.length_pos_of_ne_nil hl
  have : i % l.length < l.length := Nat.mod_lt _ hpos
  rw [List.getElem?_eq_getElem this]
  exact ⟨_, rfl⟩

theorem rehome_spec {ids possible : List Int} (hposs : ∀ c ∈ possible, c ∉ ids) {dst x : Int} {i : Nat}
    (h : rehome ids possible dst i = .ok x) : x ∉ ids := by
  unfold rehome at h
  split at h
  · exact hposs x (choice_mem h)
  · cases h; assumption

variable {σ : Type}

/-- What one visit of a feature does. -/
theorem moveOne_spec {U : Finset Nat} {best : Dict Nat (List (σ ×ₗ Int))} {ids possible : List Int} {m : Nat}
    {accept : Nat → Bool} {pick : Nat → Nat} {st st' : Assignment × Nat} {f : Nat}
    (hposs : ∀ c ∈ possible, c ∉ ids) (hs : Sound U st.1)
    (h : moveOne best ids possible m accept pick st f = .ok st') :
    Sound U st'.1 ∧ st'.1.cf.keys = st.1.cf.keys ∧
    (∀ g, g ≠ f → st'.1.fc.get? g = st.1.fc.get? g) ∧
    (∀ c, st'.1.fc.get? f = some c → c ∉ ids) ∧
    (∀ c ∉ ids, ∀ G, st.1.cf.get? c = some G → m ≤ G.card → ∃ G', st'.1.cf.get? c = some G' ∧ m ≤ G'.card) := by
  unfold moveOne at h
  obtain ⟨dst, hdst, h⟩ := bind_ok h
  obtain ⟨cur, hcur, h⟩ := bind_ok h
  rw [Dict.getE_ok_iff] at hcur
  have stay : ∀ n, cur ∉ ids → st' = (st.1, n) →
      Sound U st'.1 ∧ st'.1.cf.keys = st.1.cf.keys ∧
      (∀ g, g ≠ f → st'.1.fc.get? g = st.1.fc.get? g) ∧
      (∀ c, st'.1.fc.get? f = some c → c ∉ ids) ∧
      (∀ c ∉ ids, ∀ G, st.1.cf.get? c = some G → m ≤ G.card → ∃ G', st'.1.cf.get? c = some G' ∧ m ≤ G'.card) := by
    rintro n hci rfl
    refine ⟨hs, rfl, fun _ _ => rfl, ?_, fun c _ G hG hm => ⟨G, hG, hm⟩⟩
    intro c hc
    simp only at hc
    rw [hcur] at hc; cases hc; exact hci
  split at h
  · -- leaving a dissolving cluster
    rename_i hci
    obtain ⟨dst', hd', h⟩ := bind_ok h
    obtain ⟨a, ha, h⟩ := bind_ok h
    simp only [pure, Except.pure, Except.ok.injEq] at h
    subst h
    obtain ⟨h1, h2, -, h4, h5⟩ := doMove_spec hs hcur ha
    refine ⟨h1, h2, fun g hg => by rw [h4, if_neg hg], ?_, ?_⟩
    · intro c hc
      simp only at hc
      rw [h4, if_pos rfl] at hc
      cases hc
      exact rehome_spec hposs hd'
    · intro c hc G hG hm
      obtain ⟨G', h6, h7⟩ := h5 c G hG
      refine ⟨G', h6, ?_⟩
      have hfG : f ∉ G := by
        intro hf
        have := (hs.agree f c).2 ⟨G, hG, hf⟩
        rw [hcur] at this
        cases this
        exact hc hci
      rw [h7, Finset.erase_eq_of_notMem hfG]
      split
      · exact hm.trans (Finset.card_le_card (Finset.subset_insert _ _))
      · exact hm
  · rename_i hci
    split at h
    · simp only [pure, Except.pure, Except.ok.injEq] at h
      exact stay st.2 hci (by rw [← h])
    · rename_i hdi
      split at h
      · simp only [pure, Except.pure, Except.ok.injEq] at h
        exact stay st.2 hci (by rw [← h])
      · rename_i hcd
        obtain ⟨G0, hG0, h⟩ := bind_ok h
        rw [Dict.getE_ok_iff] at hG0
        split at h
        · simp only [pure, Except.pure, Except.ok.injEq] at h
          exact stay st.2 hci (by rw [← h])
        · rename_i hne
          split at h
          · obtain ⟨a, ha, h⟩ := bind_ok h
            simp only [pure, Except.pure, Except.ok.injEq] at h
            subst h
            obtain ⟨h1, h2, -, h4, h5⟩ := doMove_spec hs hcur ha
            refine ⟨h1, h2, fun g hg => by rw [h4, if_neg hg], ?_, ?_⟩
            · intro c hc
              simp only at hc
              rw [h4, if_pos rfl] at hc
              cases hc
              exact hdi
            · intro c hc G hG hm
              obtain ⟨G', h6, h7⟩ := h5 c G hG
              refine ⟨G', h6, ?_⟩
              by_cases hcc : c = cur
              · subst hcc
                rw [hG0] at hG; cases hG
                have hfG : f ∈ G0 := by
                  obtain ⟨G1, hG1, hf⟩ := (hs.agree f c).1 hcur
                  rw [hG0] at hG1; cases hG1; exact hf
                rw [h7, if_neg hcd, Finset.card_erase_of_mem hfG]
                omega
              · have hfG : f ∉ G := by
                  intro hf
                  have := (hs.agree f c).2 ⟨G, hG, hf⟩
                  rw [hcur] at this
                  exact hcc (Option.some.inj this).symm
                rw [h7, Finset.erase_eq_of_notMem hfG]
                split
                · exact hm.trans (Finset.card_le_card (Finset.subset_insert _ _))
                · exact hm
          · simp only [pure, Except.pure, Except.ok.injEq] at h
            exact stay (st.2 + 1) hci (by rw [← h])

/-- All visits of an iteration. -/
theorem moves_spec {U : Finset Nat} {best : Dict Nat (List (σ ×ₗ Int))} {ids possible : List Int} {m : Nat}
    {accept : Nat → Bool} {pick : Nat → Nat} (hposs : ∀ c ∈ possible, c ∉ ids) :
    ∀ (l : List Nat), l.Nodup → ∀ {st st' : Assignment × Nat}, Sound U st.1 →
    l.foldlM (moveOne best ids possible m accept pick) st = .ok st' →
    Sound U st'.1 ∧ st'.1.cf.keys = st.1.cf.keys ∧
    (∀ g, g ∉ l → st'.1.fc.get? g = st.1.fc.get? g) ∧
    (∀ f ∈ l, ∀ c, st'.1.fc.get? f = some c → c ∉ ids) ∧
    (∀ c ∉ ids, ∀ G, st.1.cf.get? c = some G → m ≤ G.card → ∃ G', st'.1.cf.get? c = some G' ∧ m ≤ G'.card)
  | [], _, st, st', hs, h => by
    simp only [List.foldlM_nil, pure, Except.pure, Except.ok.injEq] at h
    subst h
    exact ⟨hs, rfl, fun _ _ => rfl, by simp, fun c _ G hG hm => ⟨G, hG, hm⟩⟩
  | f :: l, hn, st, st', hs, h => by
    rw [List.foldlM_cons] at h
    obtain ⟨st1, h1, h⟩ := bind_ok h
    obtain ⟨a1, a2, a3, a4, a5⟩ := moveOne_spec hposs hs h1
    obtain ⟨hfl, hn'⟩ := List.nodup_cons.1 hn
    obtain ⟨b1, b2, b3, b4, b5⟩ := moves_spec hposs l hn' a1 h
    refine ⟨b1, b2.trans a2, ?_, ?_, ?_⟩
    · intro g hg
      rw [List.mem_cons, not_or] at hg
      rw [b3 g hg.2, a3 g hg.1]
    · intro g hg c hc
      rcases List.mem_cons.1 hg with rfl | hg
      · rw [b3 g hfl] at hc; exact a4 c hc
      · exact b4 g hg c hc
    · intro c hc G hG hm
      obtain ⟨G1, hG1, hm1⟩ := a5 c hc G hG hm
      exact b5 c hc G1 hG1 hm1

/-- A visit succeeds when the feature has a proposed move to an existing cluster. -/
theorem moveOne_total {U : Finset Nat} {best : Dict Nat (List (σ ×ₗ Int))} {ids possible : List Int} {m : Nat}
    {accept : Nat → Bool} {pick : Nat → Nat} {st : Assignment × Nat} {f : Nat} (hs : Sound U st.1) (hf : f ∈ U)
    (hbest : ∃ d, bestMove best f = .ok d ∧ d ∈ st.1.cf.keys) (hpk : ∀ c ∈ possible, c ∈ st.1.cf.keys)
    (hpne : ids ≠ [] → possible ≠ []) : ∃ st', moveOne best ids possible m accept pick st f = .ok st' := by
  obtain ⟨d, hd, hdk⟩ := hbest
  obtain ⟨cur, hcur⟩ := (hs.all f).1 hf
  have hck := hs.key_of hcur
  unfold moveOne
  rw [hd, Dict.getE_eq _ _ _ hcur]
  simp only [bind, Except.bind]
  split
  · rename_i hci
    have hpne' := hpne (fun h => by rw [h] at hci; simp at hci)
    have : ∃ d', rehome ids possible d (pick f) = .ok d' ∧ d' ∈ st.1.cf.keys := by
      unfold rehome
      split
      · obtain ⟨x, hx⟩ := choice_total hpne' (pick f)
        exact ⟨x, hx, hpk x (choice_mem hx)⟩
      · exact ⟨d, rfl, hdk⟩
    obtain ⟨d', hd', hdk'⟩ := this
    obtain ⟨a, ha⟩ := doMove_total (f := f) hck hdk'
    rw [hd', ]
    simp only [ha]
    exact ⟨_, rfl⟩
  · split
    · exact ⟨_, rfl⟩
    · split
      · exact ⟨_, rfl⟩
      · obtain ⟨G, hG⟩ := (Dict.get?_isSome _ _).2 hck
        rw [Dict.getE_eq _ _ _ hG]
        simp only
        split
        · exact ⟨_, rfl⟩
        · split
          · obtain ⟨a, ha⟩ := doMove_total (f := f) hck hdk
            simp only [ha]
            exact ⟨_, rfl⟩
          · exact ⟨_, rfl⟩

theorem moves_total {U : Finset Nat} {best : Dict Nat (List (σ ×ₗ Int))} {ids possible : List Int} {m : Nat}
    {accept : Nat → Bool} {pick : Nat → Nat} (hposs : ∀ c ∈ possible, c ∉ ids) :
    ∀ (l : List Nat) {st : Assignment × Nat}, Sound U st.1 → (∀ f ∈ l, f ∈ U) →
    (∀ f ∈ l, ∃ d, bestMove best f = .ok d ∧ d ∈ st.1.cf.keys) → (∀ c ∈ possible, c ∈ st.1.cf.keys) →
    (ids ≠ [] → possible ≠ []) → ∃ st', l.foldlM (moveOne best ids possible m accept pick) st = .ok st'
  | [], st, _, _, _, _, _ => ⟨st, rfl⟩
  | f :: l, st, hs, hU, hb, hp, hpne => by
    obtain ⟨st1, h1⟩ := moveOne_total (m := m) (accept := accept) (pick := pick) hs (hU f (by simp)) (hb f (by simp)) hp hpne
    obtain ⟨a1, a2, -⟩ := moveOne_spec hposs hs h1
    obtain ⟨st', h'⟩ := moves_total (m := m) (accept := accept) (pick := pick) hposs l a1
      (fun g hg => hU g (by simp [hg])) (fun g hg => by rw [a2]; exact hb g (by simp [hg])) (by rw [a2]; exact hp) hpne
    exact ⟨st', by rw [List.foldlM_cons, h1]; exact h'⟩

end Hyperreal
