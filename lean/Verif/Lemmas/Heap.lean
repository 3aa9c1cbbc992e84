import Verif.Model.Scoring
import Verif.Spec.Top
import Mathlib.Tactic

/-! Lemmas about keeping the best `k` in a heap. -/

namespace Hyperreal
open Spec

variable {α : Type} [LinearOrder α]

/-- One step of keeping the best `k`. -/
def keepBest (k : Nat) (h : List α) (x : α) : List α := if h.length < k then heapPush h x else heapPushPop h x

theorem pairwise_orderedInsert_lt {l : List α} (hl : l.Pairwise (· < ·)) {x : α} (hx : x ∉ l) :
    (l.orderedInsert (· ≤ ·) x).Pairwise (· < ·) := by
  induction l with
  | nil => simp
  | cons y t ih =>
    rw [List.orderedInsert_cons]
    obtain ⟨h1, h2⟩ := List.pairwise_cons.1 hl
    have hxy : x ≠ y := fun h => hx (by simp [h])
    split
    · rename_i hle
      have hlt : x < y := lt_of_le_of_ne hle hxy
      refine List.pairwise_cons.2 ⟨?_, hl⟩
      intro b hb
      rcases List.mem_cons.1 hb with rfl | hb
      · exact hlt
      · exact hlt.trans (h1 b hb)
    · rename_i hle
      refine List.pairwise_cons.2 ⟨?_, ih h2 (fun h => hx (by simp [h]))⟩
      intro b hb
      rw [List.mem_orderedInsert] at hb
      rcases hb with rfl | hb
      · exact lt_of_not_ge hle
      · exact h1 b hb

/-- The invariant: `h` holds the best `k` of `xs` in ascending order. -/
structure Kept (k : Nat) (xs h : List α) : Prop where
  asc : h.Pairwise (· < ·)
  sub : ∀ x ∈ h, x ∈ xs
  size : h.length ≤ k
  best : ∀ x ∈ xs, x ∉ h → h.length = k ∧ ∀ y ∈ h, x < y

theorem Kept.step {k : Nat} {xs h : List α} (hk : Kept k xs h) {x : α} (hx : x ∉ xs) :
    Kept k (xs ++ [x]) (keepBest k h x) := by
  have hxh : x ∉ h := fun hh => hx (hk.sub x hh)
  unfold keepBest
  split
  · rename_i hlt
    refine ⟨pairwise_orderedInsert_lt hk.asc hxh, ?_, ?_, ?_⟩
    · intro y hy
      rw [heapPush, List.mem_orderedInsert] at hy
      rcases hy with rfl | hy
      · simp
      · simp [hk.sub y hy]
    · rw [heapPush, List.orderedInsert_length]; omega
    · intro y hy hyn
      rw [heapPush, List.mem_orderedInsert, not_or] at hyn
      rw [List.mem_append, List.mem_singleton] at hy
      rcases hy with hy | rfl
      · have := (hk.best y hy hyn.2).1; omega
      · exact absurd rfl hyn.1
  · rename_i hge
    have hlen : h.length = k := le_antisymm hk.size (not_lt.1 hge)
    cases h with
    | nil =>
      refine ⟨by simp [heapPushPop], by simp [heapPushPop], by simp [heapPushPop], ?_⟩
      intro y _ _
      exact ⟨by simpa [heapPushPop] using hlen, by simp [heapPushPop]⟩
    | cons m t =>
      obtain ⟨h1, h2⟩ := List.pairwise_cons.1 hk.asc
      simp only [heapPushPop]
      split
      · rename_i hmx
        have hxt : x ∉ t := fun hh => hxh (by simp [hh])
        refine ⟨pairwise_orderedInsert_lt h2 hxt, ?_, ?_, ?_⟩
        · intro y hy
          rw [List.mem_orderedInsert] at hy
          rcases hy with rfl | hy
          · simp
          · simp [hk.sub y (by simp [hy])]
        · rw [List.orderedInsert_length]; simpa using hk.size
        · intro y hy hyn
          rw [List.mem_orderedInsert, not_or] at hyn
          rw [List.mem_append, List.mem_singleton] at hy
          refine ⟨by rw [List.orderedInsert_length]; simpa using hlen, ?_⟩
          have key : y ≤ m := by
            rcases hy with hy | rfl
            · by_cases hym : y = m
              · exact le_of_eq hym
              · exact le_of_lt ((hk.best y hy (by simp [hym, hyn.2])).2 m (by simp))
            · exact absurd rfl hyn.1
          intro z hz
          rw [List.mem_orderedInsert] at hz
          rcases hz with rfl | hz
          · exact lt_of_le_of_lt key hmx
          · exact lt_of_le_of_lt key (h1 z hz)
      · rename_i hmx
        refine ⟨hk.asc, fun y hy => by simp [hk.sub y hy], hk.size, ?_⟩
        intro y hy hyn
        rw [List.mem_append, List.mem_singleton] at hy
        rcases hy with hy | rfl
        · exact hk.best y hy hyn
        · refine ⟨hlen, ?_⟩
          have hlt : y < m := lt_of_le_of_ne (not_lt.1 hmx) (fun h => hyn (by simp [h]))
          intro z hz
          rcases List.mem_cons.1 hz with rfl | hz
          · exact hlt
          · exact hlt.trans (h1 z hz)

theorem Kept.foldl (k : Nat) : ∀ (ys xs h : List α), Kept k xs h → (xs ++ ys).Nodup →
    Kept k (xs ++ ys) (ys.foldl (keepBest k) h)
  | [], xs, h, hk, _ => by simpa using hk
  | y :: ys, xs, h, hk, hn => by
    have hy : y ∉ xs := fun hh => (List.nodup_append.1 hn).2.2 y hh y (by simp) rfl
    have := Kept.foldl k ys (xs ++ [y]) (keepBest k h y) (hk.step hy) (by simpa using hn)
    simpa using this

theorem kept_foldl (k : Nat) (ys : List α) (hn : ys.Nodup) : Kept k ys (ys.foldl (keepBest k) []) := by
  have := Kept.foldl k ys [] [] ⟨by simp, by simp, by simp, by simp⟩ (by simpa using hn)
  simpa using this

theorem Kept.isTop {k : Nat} {xs h : List α} (hk : Kept k xs h) : IsTop k (· ∈ xs) h.reverse where
  descending := by
    rw [List.pairwise_reverse]
    exact hk.asc
  members := fun x hx => hk.sub x (List.mem_reverse.1 hx)
  size := by simpa using hk.size
  best := fun x hx hn => by
    have := hk.best x hx (fun h => hn (List.mem_reverse.2 h))
    exact ⟨by simpa using this.1, fun y hy => this.2 y (List.mem_reverse.1 hy)⟩

end Hyperreal
