import Verif.Model.Pivot
import Verif.Spec.Pivot
import Verif.Lemmas.Query
import Verif.Lemmas.Heap
import Verif.Lemmas.Moves
import Verif.Lemmas.ModelOps
import Verif.Lemmas.FindBest

/-! Lemmas about pivoting. -/

namespace Hyperreal
open Spec DB

section Loop
variable {α : Type} [LinearOrder α]

theorem orderedInsert_replicate {z x : α} (h : z < x) (m : Nat) (l : List α) :
    (List.replicate m z ++ l).orderedInsert (· ≤ ·) x = List.replicate m z ++ l.orderedInsert (· ≤ ·) x := by
  induction m with
  | zero => simp
  | succ m ih =>
    rw [List.replicate_succ, List.cons_append, List.orderedInsert_cons, if_neg (not_le.2 h), ih]
    simp

/-- Padding a heap with sentinels below everything. -/
theorem pushPop_padded {z x : α} (hz : z < x) {k : Nat} {xs h : List α} (hk : Kept k xs h) :
    heapPushPop (List.replicate (k - h.length) z ++ h) x =
      List.replicate (k - (keepBest k h x).length) z ++ keepBest k h x := by
  unfold keepBest
  by_cases hlt : h.length < k
  · rw [if_pos hlt]
    obtain ⟨m, hm⟩ : ∃ m, k - h.length = m + 1 := ⟨k - h.length - 1, by omega⟩
    rw [hm, List.replicate_succ, List.cons_append]
    simp only [heapPushPop, if_pos hz, heapPush, List.orderedInsert_length]
    rw [orderedInsert_replicate hz]
    congr 2
    omega
  · rw [if_neg hlt]
    have : h.length = k := le_antisymm hk.size (not_lt.1 hlt)
    have h2 : (heapPushPop h x).length = k := by
      cases h with
      | nil => simpa [heapPushPop] using this
      | cons y t =>
        simp only [heapPushPop]
        split
        · rw [List.orderedInsert_length]; simpa using this
        · simpa using this
    rw [this, h2]
    simp

end Loop

variable {σ : Type} [LinearOrder σ]

theorem kept_extend {α : Type} [LinearOrder α] {k : Nat} {xs h rest : List α} (hk : Kept k xs h) (hlen : h.length = k)
    (hr : ∀ x ∈ rest, ∀ y ∈ h, x < y) : Kept k (xs ++ rest) h where
  asc := hk.asc
  sub := fun x hx => by simp [hk.sub x hx]
  size := hk.size
  best := by
    intro x hx hn
    rcases List.mem_append.1 hx with hx | hx
    · exact hk.best x hx hn
    · exact ⟨hlen, hr x hx⟩

/-- The entry of a feature. -/
def pivotItem (rd : Rat → σ) (db : DB) (query : Bitmap) (f : Listed) : σ ×ₗ Int :=
  toLex (jaccard rd query (db.docsOf f.fid), (f.fid : Int))

theorem pivotLoop_spec (rd : Rat → σ) (db : DB) (query : Bitmap) (k : Nat) (hk1 : 1 ≤ k) :
    ∀ (rest : List (σ × Listed)) (xs h : List (σ ×ₗ Int)), Kept k xs h →
      (xs ++ rest.map (fun x => pivotItem rd db query x.2)).Nodup →
      (∀ x ∈ rest, rd 0 ≤ jaccard rd query (db.docsOf x.2.fid) ∧ jaccard rd query (db.docsOf x.2.fid) ≤ x.1) →
      rest.Pairwise (fun a b => b.1 ≤ a.1) →
      ∃ h', pivotLoop rd db query rest (List.replicate (k - h.length) (toLex (rd 0, (-1 : Int))) ++ h) =
          .ok (List.replicate (k - h'.length) (toLex (rd 0, (-1 : Int))) ++ h') ∧
        Kept k (xs ++ rest.map (fun x => pivotItem rd db query x.2)) h'
  | [], xs, h, hk, _, _, _ => ⟨h, by simp [pivotLoop], by simpa using hk⟩
  | (bound, f) :: rest, xs, h, hk, hn, hb, hd => by
    have hz : toLex (rd 0, (-1 : Int)) < pivotItem rd db query f := by
      rw [pivotItem, Prod.Lex.toLex_lt_toLex]
      rcases lt_or_eq_of_le (hb (bound, f) (by simp)).1 with h | h
      · exact Or.inl h
      · exact Or.inr ⟨h, by simp; omega⟩
    have hx : pivotItem rd db query f ∉ xs := fun hh =>
      (List.nodup_append.1 hn).2.2 _ hh _ (by simp) rfl
    have hne : List.replicate (k - h.length) (toLex (rd 0, (-1 : Int))) ++ h ≠ [] := by
      intro hh
      have h1 := congrArg List.length hh
      have h2 := hk.size
      rw [List.length_append, List.length_replicate, List.length_nil] at h1
      omega
    obtain ⟨top, tl, hh⟩ := List.exists_cons_of_ne_nil hne
    rw [hh]
    simp only [pivotLoop]
    by_cases hbr : bound < (ofLex top).1
    · rw [if_pos hbr]
      have hlen : h.length = k := by
        by_contra hc
        have : h.length < k := lt_of_le_of_ne hk.size hc
        obtain ⟨m, hm⟩ : ∃ m, k - h.length = m + 1 := ⟨k - h.length - 1, by omega⟩
        rw [hm, List.replicate_succ, List.cons_append] at hh
        have htop := (List.cons.inj hh).1
        rw [← htop] at hbr
        have := hb (bound, f) (by simp)
        exact absurd (lt_of_le_of_lt (this.1.trans this.2) hbr) (lt_irrefl _)
      refine ⟨h, by rw [← hh], kept_extend hk hlen ?_⟩
      have hh' : h = top :: tl := by rw [← hh, hlen]; simp
      intro x hx y hy
      obtain ⟨e, he, rfl⟩ := List.mem_map.1 hx
      have h1 : (ofLex top).1 ≤ (ofLex y).1 := by
        rw [hh'] at hy
        rcases List.mem_cons.1 hy with rfl | hy
        · exact le_refl _
        · have := (List.pairwise_cons.1 (hh' ▸ hk.asc)).1 y hy
          exact Prod.Lex.monotone_fst_ofLex this.le
      have h2 : e.1 ≤ bound := by
        rcases List.mem_cons.1 he with rfl | he
        · exact le_refl _
        · exact (List.pairwise_cons.1 hd).1 e he
      have h3 := (hb e he).2
      rw [pivotItem, Prod.Lex.lt_iff]
      left
      exact lt_of_le_of_lt (h3.trans h2) (lt_of_lt_of_le hbr h1)
    · rw [if_neg hbr]
      have hstep := pushPop_padded hz hk
      have := pivotLoop_spec rd db query k hk1 rest (xs ++ [pivotItem rd db query f]) (keepBest k h (pivotItem rd db query f))
        (hk.step hx) (by simpa using hn) (fun x hx => hb x (by simp [hx])) (List.pairwise_cons.1 hd).2
      rw [← hstep, hh] at this
      have e : xs ++ [pivotItem rd db query f] ++ rest.map (fun x => pivotItem rd db query x.2) =
          xs ++ ((bound, f) :: rest).map (fun x => pivotItem rd db query x.2) := by simp
      rw [e] at this
      exact this

theorem jaccard_eq (rd : Rat → σ) (a b : Bitmap) : jaccard rd a b = similarity rd a b := rfl

theorem jaccard_nonneg {rd : Rat → σ} (hm : Monotone rd) (a b : Bitmap) : rd 0 ≤ jaccard rd a b :=
  hm (div_nonneg (Nat.cast_nonneg _) (Nat.cast_nonneg _))

theorem jaccard_pos_iff {rd : Rat → σ} (hp : ∀ x, 0 < x → rd 0 < rd x) (a b : Bitmap) :
    rd 0 < jaccard rd a b ↔ (a ∩ b).Nonempty := by
  constructor
  · intro h
    by_contra hc
    rw [Finset.not_nonempty_iff_eq_empty] at hc
    rw [jaccard, hc] at h
    simp at h
  · intro h
    apply hp
    have h1 : 0 < (a ∩ b).card := Finset.card_pos.2 h
    have h2 : 0 < (a ∪ b).card := lt_of_lt_of_le h1 (Finset.card_le_card
      (Finset.inter_subset_left.trans Finset.subset_union_left))
    exact div_pos (by exact_mod_cast h1) (by exact_mod_cast h2)

/-- The bound on which the search stops is one. -/
theorem pivotBound_spec {rd : Rat → σ} (hm : Monotone rd) {query cluster docs : Bitmap} (hsub : docs ⊆ cluster)
    (hq : (query ∩ cluster).Nonempty) :
    ∃ b, pivotBound rd query.card (query ∩ cluster).card docs.card = .ok b ∧ jaccard rd query docs ≤ b := by
  have hi : 0 < (query ∩ cluster).card := Finset.card_pos.2 hq
  have hiq : (query ∩ cluster).card ≤ query.card := Finset.card_le_card Finset.inter_subset_left
  have h1 : (query ∩ docs).card ≤ docs.card := Finset.card_le_card Finset.inter_subset_right
  have h2 : (query ∩ docs).card ≤ (query ∩ cluster).card := Finset.card_le_card (Finset.inter_subset_inter_left hsub)
  have hu : (query ∪ docs).card + (query ∩ docs).card = query.card + docs.card := Finset.card_union_add_card_inter _ _
  generalize hM : min docs.card (query ∩ cluster).card = M
  have hM1 : (query ∩ docs).card ≤ M := hM ▸ le_min h1 h2
  have hM2 : M ≤ docs.card := hM ▸ min_le_left _ _
  have hne : ¬ ((query.card : Int) + docs.card - min docs.card (query ∩ cluster).card) = 0 := by
    have : ((min docs.card (query ∩ cluster).card : Nat) : Int) = M := by rw [hM]
    omega
  refine ⟨_, by rw [pivotBound, if_neg hne], hm ?_⟩
  have e : (query.card : Int) + docs.card - M = ((query.card + docs.card - M : Nat) : Int) := by omega
  rw [hM, e]
  have hpos : 0 < query.card + docs.card - M := by omega
  have hpos2 : 0 < (query ∪ docs).card := by omega
  rw [Int.cast_natCast, Int.cast_natCast, div_le_div_iff₀ (by exact_mod_cast hpos2) (by exact_mod_cast hpos)]
  have : (query ∩ docs).card * (query.card + docs.card - M) ≤ M * (query ∪ docs).card := by
    apply Nat.mul_le_mul hM1; omega
  exact_mod_cast this

end Hyperreal
