import Verif.Lemmas.Bits
import Verif.Lemmas.Window

/-!
# Properties of `utilities.py` (C01, C02, C03, C05)
-/

namespace Hyperreal.Props
open Spec

/-- **C01.** `bstm` returns the top `k` matching documents by bit-slice weight, keeping all ties of the lowest rank, for
every matching set, every bit slice and every `k`; and all of `matching` if it has at most `k` members. -/
theorem bstm_exact_topK (matching : Bitmap) (bitslice : List Bitmap) (k : Int) :
    IsTopK (weight bitslice) matching k (bstm matching bitslice k) ∧
    ((matching.card : Int) ≤ k → bstm matching bitslice k = matching) := by
  refine ⟨bstm_topK matching bitslice k, fun h => ?_⟩
  simp [bstm, h]

/-- Non-trivial instance: three documents with weights 3, 1, 1 and `k = 2` — a tie at the lowest rank keeps all three;
with `k = 1` only the heaviest is returned. -/
example : bstm {1, 2, 3} [{1, 2, 3}, {1}] 2 = {1, 2, 3} ∧ bstm {1, 2, 3} [{1, 2, 3}, {1}] 1 = {1} := by decide

/-- The top-k specification determines the result (for `k ≥ 1`): two selections satisfying it are equal. This shows
that `IsTopK` pins down `bstm` completely. -/
theorem topK_unique (w : Nat → Nat) (M : Bitmap) (k : Int) (hk : 1 ≤ k) (R R' : Bitmap)
    (h : IsTopK w M k R) (h' : IsTopK w M k R') : R = R' := by
  -- the two sets are nested: otherwise two members would be strictly lighter than one another
  have key : ∀ (A B : Bitmap), IsTopK w M k A → IsTopK w M k B → A ⊆ B → A = B := by
    intro A B hA hB hAB
    by_contra hne
    obtain ⟨x, hxB, hxA⟩ : ∃ x ∈ B, x ∉ A := by
      by_contra hc
      push Not at hc
      exact hne (Finset.Subset.antisymm hAB hc)
    have hcard : A.card < B.card := Finset.card_lt_card ⟨hAB, fun hc => hxA (hc hxB)⟩
    have hBM : B.card ≤ M.card := Finset.card_le_card hB.subset
    have hAk : k ≤ (A.card : Int) := by
      have := hA.enough
      rcases le_total k (M.card : Int) with h1 | h1
      · rwa [min_eq_left h1] at this
      · rw [min_eq_right h1] at this; omega
    have hBk : k < (B.card : Int) := by omega
    have hties := hB.tiesOnly hBk
    rw [max_eq_left hk] at hties
    have hsub : A ⊆ B.filter (fun d => ∃ d' ∈ B, w d' < w d) := by
      intro a ha
      rw [Finset.mem_filter]
      exact ⟨hAB ha, x, hxB, hA.upward a ha x (hB.subset hxB) hxA⟩
    have := Finset.card_le_card hsub
    omega
  by_cases hsub : R ⊆ R'
  · exact key R R' h h' hsub
  · by_cases hsub' : R' ⊆ R
    · exact (key R' R h' h hsub').symm
    · exfalso
      obtain ⟨x, hx, hx'⟩ := Finset.not_subset.1 hsub
      obtain ⟨y, hy, hy'⟩ := Finset.not_subset.1 hsub'
      have h1 := h.upward x hx y (h'.subset hy) hy'
      have h2 := h'.upward y hy x (h.subset hx) hx'
      omega

/-- **C02.** `compute_bitslice` returns the union of the given sets, and a bit slice encoding for each document the
number of given sets that contain it. -/
theorem compute_bitslice_counts (bitmaps : List Bitmap) :
    (∀ d, d ∈ (computeBitslice bitmaps).1 ↔ ∃ b ∈ bitmaps, d ∈ b) ∧
    (∀ d, weight (computeBitslice bitmaps).2 d = multiplicity bitmaps d) := by
  refine ⟨fun d => ?_, fun d => ?_⟩
  · have := (computeBitslice_foldl bitmaps ∅ [∅] d).1
    simpa [computeBitslice] using this
  · have := (computeBitslice_foldl bitmaps ∅ [∅] d).2
    simpa [computeBitslice, weight] using this

example : computeBitslice [{1, 2}, {2, 3}, {2}] = ({1, 2, 3}, [{1, 2, 3}, {2}]) := by decide

/-- **C03.** `weight_bitslice` lists every document that occurs in some slice exactly once, in ascending order, with its
weight. -/
theorem weight_bitslice_exact (bitslice : List Bitmap) :
    (weightBitslice bitslice).Pairwise (fun a b => a.1 < b.1) ∧
    (∀ d w, (d, w) ∈ weightBitslice bitslice ↔ (∃ s ∈ bitslice, d ∈ s) ∧ w = weight bitslice d) := by
  obtain ⟨h1, h2, -⟩ := groupSum_spec _ (mergeSlices_sorted bitslice 0)
  refine ⟨h1, fun d w => ?_⟩
  unfold weightBitslice
  rw [h2, mem_fst_mergeSlices, total_mergeSlices]
  simp

/-- **C03.** Round trip: for any sequence of document sets, `weight_bitslice` of the computed bit slice lists exactly the
matching documents, each with the number of sets containing it. -/
theorem weight_compute_roundtrip (bitmaps : List Bitmap) (d w : Nat) :
    (d, w) ∈ weightBitslice (computeBitslice bitmaps).2 ↔
      (d ∈ (computeBitslice bitmaps).1 ∧ w = multiplicity bitmaps d) := by
  rw [(weight_bitslice_exact _).2, (compute_bitslice_counts bitmaps).2, (compute_bitslice_counts bitmaps).1]
  have hw : ∀ bs : List Bitmap, (∃ s ∈ bs, d ∈ s) ↔ weight bs d ≠ 0 := by
    intro bs
    induction bs with
    | nil => simp [weight]
    | cons s bs ih =>
      simp only [List.mem_cons, exists_eq_or_imp, ih, weight]
      by_cases h : d ∈ s
      · simp [h]
      · simp [h]
  rw [hw, (compute_bitslice_counts bitmaps).2]
  have : multiplicity bitmaps d ≠ 0 ↔ ∃ b ∈ bitmaps, d ∈ b := by
    simp only [multiplicity, ne_eq, List.countP_eq_zero]
    push Not
    simp
  rw [this]

example : weightBitslice (computeBitslice [{1, 2}, {2, 3}, {2}]).2 = [(1, 1), (2, 3), (3, 1)] := by
  have h : (computeBitslice [{1, 2}, {2, 3}, {2}]).2 = [{1, 2, 3}, {2}] := by decide
  have h1 : Bitmap.elems {1, 2, 3} = [1, 2, 3] := by decide
  have h2 : Bitmap.elems {2} = [2] := by decide
  simp [h, weightBitslice, mergeSlices, sliceGen, h1, h2, List.merge, pairLe, groupSum]

/-- **C05 (part proved).** The full property reads: `expand_positions_window` contains *exactly* the positions within
distance `w` of a given position in the same document, i.e. `q ∈ R ↔ InWindow ps boundaries w q`.  That is false of
the code (see `expand_window_leaks`).  Proved: it never fails on covered positions, contains every position it should,
and every extra position is the first position of the document following a given position (a boundary) at
distance at most `w`. -/
theorem expand_window_partial (ps boundaries : Bitmap) (w : Nat) (hc : Covered ps boundaries) :
    ∃ R, expandWindow ps boundaries w = .ok R ∧
      (∀ q, InWindow ps boundaries w q → q ∈ R) ∧
      (∀ q ∈ R, InWindow ps boundaries w q ∨
        (q ∈ boundaries ∧ ∃ p ∈ ps, p < q ∧ q ≤ p + w ∧ ∀ x ∈ boundaries, p < x → q ≤ x)) := by
  obtain ⟨R, hR, hq⟩ := expandWindow_spec ps boundaries w hc
  refine ⟨R, hR, ?_, ?_⟩
  · rintro q ⟨p, hp, hsd, h1, h2⟩
    obtain ⟨d, -, hd⟩ := Bitmap.item_floor (hc p hp).1
    obtain ⟨n, -, hn⟩ := Bitmap.item_next (hc p hp).2
    rw [sameDoc_iff hd hn] at hsd
    rw [hq]
    exact ⟨p, hp, d, n, hd, hn, by omega, by omega⟩
  · intro q hqR
    obtain ⟨p, hp, d, n, hd, hn, h1, h2⟩ := (hq q).1 hqR
    by_cases hqn : q = n
    · right
      subst hqn
      exact ⟨hn.1, p, hp, hn.2.1, by omega, hn.2.2⟩
    · left
      refine ⟨p, hp, ?_, by omega, by omega⟩
      rw [sameDoc_iff hd hn]
      constructor
      · omega
      · omega

/-- **C05, exact behaviour of the code.** The result is exactly the intended window plus the first position of the next
document wherever that is within distance `w`. -/
theorem expand_window_exact (ps boundaries : Bitmap) (w : Nat) (hc : Covered ps boundaries) :
    ∃ R, expandWindow ps boundaries w = .ok R ∧
      ∀ q, q ∈ R ↔ InWindow ps boundaries w q ∨
        (q ∈ boundaries ∧ ∃ p ∈ ps, p < q ∧ q ≤ p + w ∧ ∀ x ∈ boundaries, p < x → q ≤ x) := by
  obtain ⟨R, hR, h1, h2⟩ := expand_window_partial ps boundaries w hc
  refine ⟨R, hR, fun q => ⟨h2 q, ?_⟩⟩
  rintro (h | ⟨hb, p, hp, hlt, hle, hmin⟩)
  · exact h1 q h
  · obtain ⟨R', hR', hq⟩ := expandWindow_spec ps boundaries w hc
    rw [hR] at hR'; cases hR'
    rw [hq]
    obtain ⟨d, -, hd⟩ := Bitmap.item_floor (hc p hp).1
    refine ⟨p, hp, d, q, hd, ⟨hb, hlt, hmin⟩, ?_, ?_⟩
    · have := hd.2.1; omega
    · omega

/-- **C05, refutation.** The intended property fails: with two documents of lengths 2 and 3 (boundaries 0, 2, 5), the
window of size 1 around position 1 (the last of the first document) contains position 2, the first of the second. -/
theorem expand_window_leaks :
    Covered {1} {0, 2, 5} ∧ expandWindow {1} {0, 2, 5} 1 = .ok {0, 1, 2} ∧ ¬ InWindow {1} {0, 2, 5} 1 2 := by
  refine ⟨?_, by decide, ?_⟩
  · intro p hp
    simp at hp; subst hp
    exact ⟨⟨0, by decide, by decide⟩, ⟨2, by decide, by decide⟩⟩
  · rintro ⟨p, hp, hs, -, -⟩
    simp at hp; subst hp
    have := (hs 2 (by decide)).2 (by decide)
    omega

/-- `window_size = 0` changes nothing: the result is exactly the given positions. -/
theorem expand_window_zero (ps boundaries : Bitmap) (hc : Covered ps boundaries) :
    expandWindow ps boundaries 0 = .ok ps := by
  obtain ⟨R, hR, hq⟩ := expand_window_exact ps boundaries 0 hc
  rw [hR]; congr 1
  ext q
  rw [hq]
  constructor
  · rintro (⟨p, hp, -, h1, h2⟩ | ⟨-, p, hp, h1, h2, -⟩)
    · have : q = p := by omega
      subst this; exact hp
    · omega
  · intro h; left
    exact ⟨q, h, fun b _ => Iff.rfl, by omega, by omega⟩

end Hyperreal.Props
