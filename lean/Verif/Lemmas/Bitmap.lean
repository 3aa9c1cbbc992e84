import Verif.Model.Bitmap
import Mathlib.Data.List.Sort
import Mathlib.Data.Finset.Sort
import Mathlib.Tactic.Linarith

/-! Helper lemmas about bitmaps. -/

namespace Hyperreal.Bitmap

@[simp] theorem mem_elems {s : Bitmap} {x : Nat} : x ∈ s.elems ↔ x ∈ s := by
  unfold elems
  simp only [List.mem_filter, List.mem_range, decide_eq_true_eq]
  constructor
  · exact fun h => h.2
  · intro h
    exact ⟨Nat.lt_succ_of_le (Finset.le_sup (f := id) h), h⟩

theorem elems_pairwise (s : Bitmap) : s.elems.Pairwise (· < ·) := by
  unfold elems
  exact List.Pairwise.filter _ List.pairwise_lt_range

theorem elems_nodup (s : Bitmap) : s.elems.Nodup :=
  (elems_pairwise s).imp (fun h => Nat.ne_of_lt h)

theorem elems_toFinset (s : Bitmap) : s.elems.toFinset = s := by
  ext x; simp

theorem elems_length (s : Bitmap) : s.elems.length = s.card := by
  rw [← List.toFinset_card_of_nodup (elems_nodup s), elems_toFinset]

@[simp] theorem elems_empty : elems (∅ : Bitmap) = [] := by decide

theorem elems_eq_nil {s : Bitmap} : s.elems = [] ↔ s = ∅ := by
  constructor
  · intro h
    rw [← elems_toFinset s, h]; rfl
  · rintro rfl; exact elems_empty

/-- Two bitmaps with a common ascending enumeration: `elems` is *the* ascending list of members. -/
theorem elems_eq_of_sorted {s : Bitmap} {l : List Nat} (hl : l.Pairwise (· < ·))
    (hm : ∀ x, x ∈ l ↔ x ∈ s) : s.elems = l := by
  have hp : s.elems.Perm l := by
    rw [List.perm_ext_iff_of_nodup (elems_nodup s) (hl.imp (fun h => Nat.ne_of_lt h))]
    intro x; rw [hm x, mem_elems]
  exact List.Perm.eq_of_pairwise (fun a b _ _ h1 h2 => absurd (Nat.lt_trans h1 h2) (Nat.lt_irrefl _))
    (elems_pairwise s) hl hp

theorem mem_addRange {s : Bitmap} {lo hi x : Nat} :
    x ∈ s.addRange lo hi ↔ x ∈ s ∨ (lo ≤ x ∧ x < hi) := by
  simp [addRange]

/-- In a strictly ascending list, the number of members `≤ l[i]` is `i+1`. -/
theorem countP_le_getElem {l : List Nat} (hl : l.Pairwise (· < ·)) (x : Nat) :
    l.filter (· ≤ x) = l.take (l.filter (· ≤ x)).length := by
  induction l with
  | nil => simp
  | cons a t ih =>
    rw [List.pairwise_cons] at hl
    by_cases h : a ≤ x
    · simp only [h, decide_true, List.filter_cons_of_pos, List.length_cons, List.take_succ_cons]
      rw [← ih hl.2]
    · have : t.filter (· ≤ x) = [] := by
        rw [List.filter_eq_nil_iff]
        intro b hb
        have := hl.1 b hb
        simp; omega
      simp [h, this]

theorem rank_eq_length (s : Bitmap) (x : Nat) : s.rank x = (s.elems.filter (· ≤ x)).length := by
  unfold rank
  have : s.filter (· ≤ x) = (s.elems.filter (· ≤ x)).toFinset := by
    ext y; simp
  rw [this, List.toFinset_card_of_nodup ((elems_nodup s).filter _)]

theorem filter_le_eq_take (s : Bitmap) (x : Nat) : s.elems.filter (· ≤ x) = s.elems.take (s.rank x) := by
  rw [rank_eq_length]; exact countP_le_getElem (elems_pairwise s) x

/-- Members at an index below the rank are `≤ x`. -/
theorem getElem_le_of_lt_rank {s : Bitmap} {x i : Nat} (h : i < s.elems.length) (hi : i < s.rank x) :
    s.elems[i] ≤ x := by
  have hm : s.elems[i] ∈ s.elems.take (s.rank x) := by
    rw [List.mem_take_iff_getElem]
    exact ⟨i, by omega, rfl⟩
  rw [← filter_le_eq_take] at hm
  simpa using (List.mem_filter.1 hm).2

/-- Members at an index at or above the rank are `> x`. -/
theorem lt_getElem_of_rank_le {s : Bitmap} {x i : Nat} (h : i < s.elems.length) (hi : s.rank x ≤ i) :
    x < s.elems[i] := by
  by_contra hc
  have hc' : s.elems[i] ≤ x := by omega
  have hm : s.elems[i] ∈ s.elems.filter (· ≤ x) := by
    rw [List.mem_filter]; exact ⟨List.getElem_mem h, by simpa using hc'⟩
  rw [filter_le_eq_take, List.mem_take_iff_getElem] at hm
  obtain ⟨j, hj, hje⟩ := hm
  have : j = i := (elems_nodup s).getElem_inj_iff.1 hje
  omega

theorem rank_le_length (s : Bitmap) (x : Nat) : s.rank x ≤ s.elems.length := by
  rw [rank_eq_length]; exact List.length_filter_le _ _

/-- The greatest member `≤ p`. -/
def IsFloor (b : Bitmap) (p d : Nat) : Prop := d ∈ b ∧ d ≤ p ∧ ∀ x ∈ b, x ≤ p → x ≤ d
/-- The least member `> p`. -/
def IsNext (b : Bitmap) (p n : Nat) : Prop := n ∈ b ∧ p < n ∧ ∀ x ∈ b, p < x → n ≤ x

theorem item_nat {s : Bitmap} {i : Nat} (h : i < s.elems.length) : s.item (i : Int) = .ok s.elems[i] := by
  unfold item
  have h1 : ¬ ((i : Int) < 0) := by omega
  simp [h1, List.getElem?_eq_getElem h]

theorem item_floor {b : Bitmap} {p : Nat} (h0 : ∃ x ∈ b, x ≤ p) :
    ∃ d, b.item ((b.rank p : Int) - 1) = .ok d ∧ IsFloor b p d := by
  obtain ⟨x, hx, hxp⟩ := h0
  have hr : 0 < b.rank p := by
    unfold rank; rw [Finset.card_pos]; exact ⟨x, by simp [hx, hxp]⟩
  have hle := rank_le_length b p
  have hlt : b.rank p - 1 < b.elems.length := by omega
  refine ⟨b.elems[b.rank p - 1], ?_, ?_, ?_, ?_⟩
  · have : ((b.rank p : Int) - 1) = ((b.rank p - 1 : Nat) : Int) := by omega
    rw [this, item_nat hlt]
  · exact mem_elems.1 (List.getElem_mem hlt)
  · exact getElem_le_of_lt_rank hlt (by omega)
  · intro y hy hyp
    obtain ⟨j, hj, rfl⟩ := List.getElem_of_mem (mem_elems.2 hy)
    have hjr : j < b.rank p := by
      by_contra hc
      have := lt_getElem_of_rank_le (x := p) hj (by omega)
      omega
    rcases Nat.lt_or_ge j (b.rank p - 1) with h | h
    · exact Nat.le_of_lt (List.pairwise_iff_getElem.1 (elems_pairwise b) _ _ hj hlt h)
    · have : j = b.rank p - 1 := by omega
      subst this; exact le_refl _

theorem item_next {b : Bitmap} {p : Nat} (h1 : ∃ x ∈ b, p < x) :
    ∃ n, b.item (b.rank p : Int) = .ok n ∧ IsNext b p n := by
  obtain ⟨x, hx, hxp⟩ := h1
  obtain ⟨j, hj, rfl⟩ := List.getElem_of_mem (mem_elems.2 hx)
  have hjr : b.rank p ≤ j := by
    by_contra hc
    have := getElem_le_of_lt_rank (x := p) hj (by omega)
    omega
  have hlt : b.rank p < b.elems.length := by omega
  refine ⟨b.elems[b.rank p], item_nat hlt, mem_elems.1 (List.getElem_mem hlt),
    lt_getElem_of_rank_le hlt (le_refl _), ?_⟩
  intro y hy hyp
  obtain ⟨k, hk, rfl⟩ := List.getElem_of_mem (mem_elems.2 hy)
  have hkr : b.rank p ≤ k := by
    by_contra hc
    have := getElem_le_of_lt_rank (x := p) hk (by omega)
    omega
  rcases Nat.lt_or_ge (b.rank p) k with h | h
  · exact Nat.le_of_lt (List.pairwise_iff_getElem.1 (elems_pairwise b) _ _ hlt hk h)
  · have : k = b.rank p := by omega
    subst this; exact le_refl _

theorem IsFloor.unique {b : Bitmap} {p d d' : Nat} (h : IsFloor b p d) (h' : IsFloor b p d') : d = d' :=
  le_antisymm (h'.2.2 _ h.1 h.2.1) (h.2.2 _ h'.1 h'.2.1)

theorem IsNext.unique {b : Bitmap} {p d d' : Nat} (h : IsNext b p d) (h' : IsNext b p d') : d = d' :=
  le_antisymm (h.2.2 _ h'.1 h'.2.1) (h'.2.2 _ h.1 h.2.1)

end Hyperreal.Bitmap
