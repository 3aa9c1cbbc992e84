import Verif.Model.Utilities
import Verif.Spec.Bits
import Verif.Lemmas.Bitmap
import Mathlib.Tactic.Ring

namespace Hyperreal
open Spec

/-! ## bstm -/

/-- Weight read from the most significant layer down, with accumulator. -/
def wrev : List Bitmap → Nat → Nat → Nat
  | [], _, a => a
  | s :: r, d, a => wrev r d (2 * a + if d ∈ s then 1 else 0)

theorem wrev_eq (r : List Bitmap) (d a : Nat) : wrev r d a = wrev r d 0 + 2 ^ r.length * a := by
  induction r generalizing a with
  | nil => simp [wrev]
  | cons s r ih =>
    simp only [wrev, List.length_cons]
    rw [ih, ih (2 * 0 + _)]
    ring

theorem wrev_lt (r : List Bitmap) (d : Nat) : wrev r d 0 < 2 ^ r.length := by
  induction r with
  | nil => simp [wrev]
  | cons s r ih =>
    simp only [wrev, List.length_cons]
    rw [wrev_eq]
    have : (2 * 0 + if d ∈ s then 1 else 0) ≤ 1 := by split <;> simp
    have h2 : 2 ^ r.length * (2 * 0 + if d ∈ s then 1 else 0) ≤ 2 ^ r.length := by
      calc _ ≤ 2 ^ r.length * 1 := Nat.mul_le_mul_left _ this
        _ = _ := by simp
    rw [pow_succ]; omega

theorem wrev_strict (r : List Bitmap) (d d' a a' : Nat) (h : a < a') : wrev r d a < wrev r d' a' := by
  rw [wrev_eq r d, wrev_eq r d']
  have h1 := wrev_lt r d
  have : 2 ^ r.length * (a + 1) ≤ 2 ^ r.length * a' := Nat.mul_le_mul_left _ h
  rw [Nat.mul_add] at this
  omega

theorem wrev_append (r s : List Bitmap) (d a : Nat) : wrev (r ++ s) d a = wrev s d (wrev r d a) := by
  induction r generalizing a with
  | nil => rfl
  | cons x r ih => simp [wrev, ih]

theorem wrev_reverse (bs : List Bitmap) (d : Nat) : wrev bs.reverse d 0 = weight bs d := by
  induction bs with
  | nil => rfl
  | cons s bs ih =>
    simp only [List.reverse_cons, wrev_append, ih, wrev, weight]
    omega

/-- Loop invariant of `bstm`: `e` are the candidates agreeing with the current prefix, `g` those above. -/
theorem bstmLoop_topK (k : Int) (M : Bitmap) :
    ∀ (rest : List Bitmap) (e g : Bitmap) (H : Nat → Nat) (h : Nat),
      e ⊆ M → g ⊆ M →
      (∀ d ∈ M, d ∈ e ↔ H d = h) → (∀ d ∈ M, d ∈ g ↔ h < H d) →
      ((g.card : Int) < max k 1) → (k ≤ ((g ∪ e).card : Int)) →
      IsTopK (fun d => wrev rest d (H d)) M k (bstmLoop k rest e g) := by
  intro rest
  induction rest with
  | nil =>
    intro e g H h heM hgM he hg hgc hc
    simp only [bstmLoop, wrev]
    refine ⟨Finset.union_subset hgM heM, ?_, ?_, ?_⟩
    · intro d hd d' hd' hnd'
      have h1 : ¬ d' ∈ g := fun h => hnd' (Finset.mem_union_left _ h)
      have h2 : ¬ d' ∈ e := fun h => hnd' (Finset.mem_union_right _ h)
      rw [hg d' hd'] at h1
      rw [he d' hd'] at h2
      rcases Finset.mem_union.1 hd with h3 | h3
      · have := (hg d (hgM h3)).1 h3; omega
      · have := (he d (heM h3)).1 h3; omega
    · exact le_trans (min_le_left _ _) hc
    · intro _
      refine lt_of_le_of_lt ?_ hgc
      have : ((g ∪ e).filter fun d => ∃ d' ∈ g ∪ e, H d' < H d) ⊆ g := by
        intro d hd
        rw [Finset.mem_filter] at hd
        obtain ⟨hd1, d', hd', hlt⟩ := hd
        have hdM : d ∈ M := (Finset.union_subset hgM heM) hd1
        have hd'M : d' ∈ M := (Finset.union_subset hgM heM) hd'
        rw [hg d hdM]
        rcases Finset.mem_union.1 hd' with h3 | h3
        · have := (hg d' hd'M).1 h3; omega
        · have := (he d' hd'M).1 h3; omega
      exact_mod_cast Finset.card_le_card this
  | cons s rest ih =>
    intro e g H h heM hgM he hg hgc hc
    have hesM : e ∩ s ⊆ M := fun x hx => heM (Finset.mem_inter.1 hx).1
    have hxM : g ∪ (e ∩ s) ⊆ M := Finset.union_subset hgM hesM
    -- the prefix extended by one bit
    set H' : Nat → Nat := fun d => 2 * H d + if d ∈ s then 1 else 0 with hH'
    have hbit : ∀ d, (if d ∈ s then (1 : Nat) else 0) ≤ 1 := by intro d; split <;> simp
    simp only [bstmLoop, wrev]
    split
    · -- n > k
      rename_i hn
      refine ih (e ∩ s) g H' (2 * h + 1) hesM hgM ?_ ?_ hgc (le_of_lt hn)
      · intro d hd
        rw [Finset.mem_inter, he d hd]
        simp only [hH']
        by_cases hs : d ∈ s <;> simp [hs]; omega
      · intro d hd
        rw [hg d hd]
        simp only [hH']
        by_cases hs : d ∈ s <;> simp [hs] <;> omega
    · rename_i hn
      split
      · -- n < k
        rename_i hn2
        refine ih (e \ s) (g ∪ (e ∩ s)) H' (2 * h) (fun x hx => heM (Finset.mem_sdiff.1 hx).1) hxM ?_ ?_
          (lt_of_lt_of_le hn2 (le_max_left _ _)) ?_
        · intro d hd
          rw [Finset.mem_sdiff, he d hd]
          simp only [hH']
          by_cases hs : d ∈ s <;> simp [hs]; omega
        · intro d hd
          rw [Finset.mem_union, Finset.mem_inter, hg d hd, he d hd]
          simp only [hH']
          by_cases hs : d ∈ s <;> simp [hs] <;> omega
        · have : (g ∪ e ∩ s) ∪ e \ s = g ∪ e := by
            ext x; simp only [Finset.mem_union, Finset.mem_inter, Finset.mem_sdiff]; tauto
          rw [this]; exact hc
      · -- n = k
        rename_i hn2
        have hk : ((g ∪ e ∩ s).card : Int) = k := by omega
        have hmem : ∀ d ∈ M, d ∈ g ∪ (e ∩ s) ↔ 2 * h + 1 ≤ H' d := by
          intro d hd
          rw [Finset.mem_union, Finset.mem_inter, hg d hd, he d hd]
          simp only [hH']
          by_cases hs : d ∈ s <;> simp [hs] <;> omega
        refine ⟨hxM, ?_, by rw [hk]; exact min_le_left _ _, by rw [hk]; intro hh; exact absurd hh (lt_irrefl _)⟩
        intro d hd d' hd' hnd'
        have h1 := (hmem d (hxM hd)).1 hd
        have h2 : ¬ 2 * h + 1 ≤ H' d' := fun hh => hnd' ((hmem d' hd').2 hh)
        exact wrev_strict rest d' d _ _ (by show H' d' < H' d; omega)

theorem bstm_topK (M : Bitmap) (bs : List Bitmap) (k : Int) :
    IsTopK (weight bs) M k (bstm M bs k) := by
  unfold bstm
  split
  · rename_i h
    exact ⟨fun _ h => h, fun d hd d' hd' hn => absurd hd' hn, min_le_right _ _, fun hc => by omega⟩
  · rename_i h
    have := bstmLoop_topK k M bs.reverse M ∅ (fun _ => 0) 0 (fun _ h => h) (by simp) (by simp) (by simp)
      (by simp) (by simp; omega)
    have heq : (fun d => wrev bs.reverse d 0) = weight bs := by
      funext d; exact wrev_reverse bs d
    rw [← heq]; exact this

/-! ## compute_bitslice -/

theorem weight_addCarry (bs : List Bitmap) (c : Bitmap) (d : Nat) :
    weight (addCarry bs c) d = weight bs d + if d ∈ c then 1 else 0 := by
  induction bs generalizing c with
  | nil =>
    simp only [addCarry]
    split
    · rename_i h; simp [h, weight]
    · simp [weight]
  | cons b bs ih =>
    have hrest : weight (if b ∩ c = ∅ then bs else addCarry bs (b ∩ c)) d
        = weight bs d + if d ∈ b ∩ c then 1 else 0 := by
      split
      · rename_i h; rw [h]; simp
      · exact ih _
    simp only [addCarry, weight, hrest, Finset.mem_symmDiff, Finset.mem_inter]
    by_cases h1 : d ∈ b <;> by_cases h2 : d ∈ c <;> simp [h1, h2] <;> omega

theorem computeBitslice_foldl (bitmaps : List Bitmap) (m : Bitmap) (bs : List Bitmap) (d : Nat) :
    let r := bitmaps.foldl (fun acc b => (acc.1 ∪ b, addCarry acc.2 b)) (m, bs)
    (d ∈ r.1 ↔ d ∈ m ∨ ∃ b ∈ bitmaps, d ∈ b) ∧ weight r.2 d = weight bs d + multiplicity bitmaps d := by
  induction bitmaps generalizing m bs with
  | nil => simp [multiplicity]
  | cons b t ih =>
    simp only [List.foldl_cons]
    obtain ⟨h1, h2⟩ := ih (m ∪ b) (addCarry bs b)
    refine ⟨?_, ?_⟩
    · rw [h1]; simp only [Finset.mem_union, List.mem_cons, exists_eq_or_imp]; tauto
    · rw [h2, weight_addCarry]
      simp only [multiplicity, List.countP_cons]
      by_cases hb : d ∈ b <;> simp [hb] <;> omega

/-! ## weight_bitslice -/

theorem pairLe_iff (a b : Nat × Nat) : pairLe a b = true ↔ a.1 < b.1 ∨ (a.1 = b.1 ∧ a.2 ≤ b.2) := by
  simp [pairLe]

theorem sliceGen_fst_sorted (bm : Bitmap) (i : Nat) :
    (sliceGen bm i).Pairwise (fun a b => pairLe a b = true) := by
  unfold sliceGen
  rw [List.pairwise_map]
  exact (Bitmap.elems_pairwise bm).imp (fun h => by rw [pairLe_iff]; exact Or.inl h)

theorem mergeSlices_sorted (bs : List Bitmap) (i : Nat) :
    (mergeSlices i bs).Pairwise (fun a b => pairLe a b = true) := by
  induction bs generalizing i with
  | nil => simp [mergeSlices]
  | cons b bs ih =>
    simp only [mergeSlices]
    apply List.pairwise_merge (le := pairLe)
    · intro a b c; simp only [pairLe_iff]; omega
    · intro a b; simp only [Bool.or_eq_true, pairLe_iff]; omega
    · exact sliceGen_fst_sorted b i
    · exact ih (i + 1)

/-- Sum of the weights listed for document `d`. -/
def total (l : List (Nat × Nat)) (d : Nat) : Nat := ((l.filter (fun x => x.1 = d)).map (·.2)).sum

theorem total_perm {l l' : List (Nat × Nat)} (h : l.Perm l') (d : Nat) : total l d = total l' d := by
  unfold total
  exact ((h.filter _).map _).sum_eq

theorem total_append (l l' : List (Nat × Nat)) (d : Nat) : total (l ++ l') d = total l d + total l' d := by
  simp [total]

theorem total_sliceGen (bm : Bitmap) (i d : Nat) : total (sliceGen bm i) d = if d ∈ bm then 2 ^ i else 0 := by
  unfold total sliceGen
  rw [List.filter_map, List.map_map]
  have h1 : (List.filter ((fun x : Nat × Nat => decide (x.1 = d)) ∘ fun d => (d, 2 ^ i)) bm.elems)
      = if d ∈ bm then [d] else [] := by
    have hf : ((fun x : Nat × Nat => decide (x.1 = d)) ∘ fun d => (d, 2 ^ i)) = fun x => decide (x = d) := by
      funext x; simp
    rw [hf]
    split
    · rename_i h
      have : bm.elems.filter (fun x => decide (x = d)) = [d] := by
        have hn := Bitmap.elems_nodup bm
        have hc := List.filter_eq (l := bm.elems) d
        rw [List.count_eq_one_of_mem hn (Bitmap.mem_elems.2 h)] at hc
        simpa [eq_comm] using hc
      exact this
    · rename_i h
      rw [List.filter_eq_nil_iff]
      intro x hx; simp; rintro rfl; exact h (Bitmap.mem_elems.1 hx)
  rw [h1]
  split <;> simp

theorem total_mergeSlices (bs : List Bitmap) (i d : Nat) : total (mergeSlices i bs) d = 2 ^ i * weight bs d := by
  induction bs generalizing i with
  | nil => simp [mergeSlices, total, weight]
  | cons b bs ih =>
    simp only [mergeSlices]
    rw [total_perm (List.merge_perm_append _), total_append, total_sliceGen, ih, weight, pow_succ]
    split <;> ring

theorem mem_fst_mergeSlices (bs : List Bitmap) (i d : Nat) :
    (∃ w, (d, w) ∈ mergeSlices i bs) ↔ ∃ b ∈ bs, d ∈ b := by
  induction bs generalizing i with
  | nil => simp [mergeSlices]
  | cons b bs ih =>
    simp only [mergeSlices, List.mem_merge, List.mem_cons, exists_or, exists_eq_or_imp, ih]
    simp [sliceGen]

theorem groupSum_spec (l : List (Nat × Nat)) (hs : l.Pairwise (fun a b => pairLe a b = true)) :
    (groupSum l).Pairwise (fun a b => a.1 < b.1) ∧
    (∀ d w, (d, w) ∈ groupSum l ↔ (∃ w', (d, w') ∈ l) ∧ w = total l d) ∧
    (∀ d w rest, groupSum l = (d, w) :: rest → ∃ w' t, l = (d, w') :: t) := by
  induction l with
  | nil => simp [groupSum]
  | cons x t ih =>
    obtain ⟨d, w⟩ := x
    rw [List.pairwise_cons] at hs
    obtain ⟨ih1, ih2, ih3⟩ := ih hs.2
    have hle : ∀ y ∈ t, d ≤ y.1 := by
      intro y hy; have := (pairLe_iff _ _).1 (hs.1 y hy); omega
    have tot_cons : ∀ d', total ((d, w) :: t) d' = (if d = d' then w else 0) + total t d' := by
      intro d'; unfold total; by_cases h : d = d' <;> simp [h]
    simp only [groupSum]
    cases hg : groupSum t with
    | nil =>
      have ht : t = [] := by
        cases t with
        | nil => rfl
        | cons y t' =>
          obtain ⟨a, b⟩ := y
          have := (ih2 a (total ((a, b) :: t') a)).2 ⟨⟨b, by simp⟩, rfl⟩
          rw [hg] at this; simp at this
      subst ht
      refine ⟨by simp, ?_, ?_⟩
      · intro d' w'
        rw [tot_cons]
        simp only [List.mem_singleton, Prod.mk.injEq, exists_and_left]
        constructor
        · rintro ⟨rfl, rfl⟩; simp [total]
        · rintro ⟨⟨rfl, _⟩, rfl⟩; simp [total]
      · intro a b r h; simp at h; exact ⟨w, [], by simp [h.1.1]⟩
    | cons y out =>
      obtain ⟨d', w'⟩ := y
      obtain ⟨w'', t', ht'⟩ := ih3 d' w' out hg
      rw [hg] at ih1 ih2
      rw [List.pairwise_cons] at ih1
      have hdd' : d ≤ d' := hle (d', w'') (by rw [ht']; simp)
      have hw' : w' = total t d' := ((ih2 d' w').1 (by simp)).2
      by_cases heq : d = d'
      · subst heq
        simp only [if_true]
        refine ⟨List.pairwise_cons.2 ⟨ih1.1, ih1.2⟩, ?_, ?_⟩
        · intro a b
          rw [List.mem_cons, tot_cons]
          have h2 := ih2 a b
          by_cases ha : d = a
          · subst ha
            constructor
            · rintro (h | h)
              · simp at h; exact ⟨⟨w, by simp⟩, by simp [hw', h]⟩
              · exact absurd (ih1.1 _ h) (lt_irrefl _)
            · rintro ⟨_, hb⟩
              left; simp at hb; simp [hb, hw']
          · have ha' : ¬ a = d := fun h => ha h.symm
            simp only [List.mem_cons, Prod.mk.injEq, ha', false_and, false_or, ha, if_false, zero_add] at h2 ⊢
            exact h2
        · intro a b r h; simp at h; exact ⟨w, t, by simp [h.1.1]⟩
      · simp only [heq, if_false]
        have hlt : d < d' := lt_of_le_of_ne hdd' heq
        refine ⟨List.pairwise_cons.2 ⟨?_, List.pairwise_cons.2 ih1⟩, ?_, ?_⟩
        · intro y hy
          rcases List.mem_cons.1 hy with rfl | hy
          · exact hlt
          · exact lt_trans hlt (ih1.1 y hy)
        · intro a b
          rw [List.mem_cons, tot_cons]
          have h2 := ih2 a b
          by_cases ha : d = a
          · subst ha
            have hnot : ¬ ∃ v, (d, v) ∈ t := by
              rintro ⟨v, hv⟩
              have := (ih2 d (total t d)).2 ⟨⟨v, hv⟩, rfl⟩
              rcases List.mem_cons.1 this with h | h
              · simp at h; exact heq h.1
              · have := ih1.1 _ h; simp at this; omega
            have h0 : total t d = 0 := by
              unfold total
              have : t.filter (fun x => x.1 = d) = [] := by
                rw [List.filter_eq_nil_iff]
                rintro ⟨p, q⟩ hp; simp; rintro rfl; exact hnot ⟨q, hp⟩
              rw [this]; simp
            constructor
            · rintro (h | h)
              · simp at h; exact ⟨⟨w, by simp⟩, by simp [h0, h]⟩
              · exact absurd (h2.1 h).1 hnot
            · rintro ⟨_, hb⟩; left; simp [h0] at hb; simp [hb]
          · have ha' : ¬ a = d := fun h => ha h.symm
            simp only [List.mem_cons, Prod.mk.injEq, ha', false_and, false_or, ha, if_false, zero_add] at h2 ⊢
            exact h2
        · intro a b r h; simp at h; exact ⟨w, t, by simp [h.1.1]⟩

end Hyperreal
