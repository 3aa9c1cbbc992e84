import Verif.Model.Utilities
import Verif.Spec.Bits
import Verif.Lemmas.Bitmap

namespace Hyperreal
open Spec Bitmap

/-- What one step of the window expansion adds for position `p`. -/
def Reach (b : Bitmap) (w p q : Nat) : Prop :=
  ∃ ds ns, IsFloor b p ds ∧ IsNext b p ns ∧ max ds (p - w) ≤ q ∧ q ≤ min ns (p + w)

theorem expandLoop_spec (b : Bitmap) (w : Nat) (ps : List Nat) :
    ∀ (cur : Option (Nat × Nat)) (W : Bitmap), ps.Pairwise (· < ·) →
      (∀ p ∈ ps, (∃ x ∈ b, x ≤ p) ∧ (∃ x ∈ b, p < x)) →
      (∀ ds ns, cur = some (ds, ns) → ∃ p0, IsFloor b p0 ds ∧ IsNext b p0 ns ∧ ∀ p ∈ ps, p0 < p) →
      ∃ R, expandLoop b w ps cur W = .ok R ∧ ∀ q, q ∈ R ↔ q ∈ W ∨ ∃ p ∈ ps, Reach b w p q := by
  induction ps with
  | nil => intro cur W _ _ _; exact ⟨W, rfl, by simp⟩
  | cons p ps ih =>
    intro cur W hs hc hcur
    rw [List.pairwise_cons] at hs
    obtain ⟨d, hd, hdf⟩ := item_floor (hc p (by simp)).1
    obtain ⟨n, hn, hnf⟩ := item_next (hc p (by simp)).2
    have hsel : curBounds b p cur = .ok (d, n) := by
      have hfresh : docBounds b p = .ok (d, n) := by
        simp only [docBounds, hd, hn, bind, Except.bind, pure, Except.pure]
      cases hcu : cur with
      | none => exact hfresh
      | some dn =>
        obtain ⟨ds, ns⟩ := dn
        obtain ⟨p0, hf0, hn0, hlt⟩ := hcur ds ns hcu
        have hp0 : p0 < p := hlt p (by simp)
        simp only [curBounds]
        split
        · exact hfresh
        · rename_i hge
          have h1 : IsFloor b p ds := ⟨hf0.1, by have := hf0.2.1; omega, by
            intro x hx hxp
            rcases Nat.lt_or_ge p0 x with h | h
            · have := hn0.2.2 x hx h; omega
            · exact hf0.2.2 x hx h⟩
          have h2 : IsNext b p ns := ⟨hn0.1, by omega, by
            intro x hx hxp
            exact hn0.2.2 x hx (by omega)⟩
          rw [h1.unique hdf, h2.unique hnf]
    obtain ⟨R, hR, hRq⟩ := ih (some (d, n)) (W.addRange (max d (p - w)) (min n (p + w) + 1)) hs.2
      (fun q hq => hc q (by simp [hq]))
      (by
        intro ds ns h
        simp only [Option.some.injEq, Prod.mk.injEq] at h
        obtain ⟨rfl, rfl⟩ := h
        exact ⟨p, hdf, hnf, hs.1⟩)
    refine ⟨R, ?_, ?_⟩
    · rw [← hR]
      simp only [expandLoop]
      rw [hsel]
      rfl
    · intro q
      rw [hRq, mem_addRange]
      have hp : Reach b w p q ↔ max d (p - w) ≤ q ∧ q < min n (p + w) + 1 := by
        constructor
        · rintro ⟨ds, ns, h1, h2, h3, h4⟩
          rw [h1.unique hdf] at h3; rw [h2.unique hnf] at h4
          exact ⟨h3, by omega⟩
        · rintro ⟨h3, h4⟩; exact ⟨d, n, hdf, hnf, h3, by omega⟩
      simp only [List.mem_cons, exists_eq_or_imp]
      rw [hp]; tauto

theorem expandWindow_spec (ps b : Bitmap) (w : Nat) (hc : Covered ps b) :
    ∃ R, expandWindow ps b w = .ok R ∧ ∀ q, q ∈ R ↔ ∃ p ∈ ps, Reach b w p q := by
  unfold expandWindow
  split
  · rename_i h; exact ⟨∅, rfl, by simp [h]⟩
  · obtain ⟨R, hR, hq⟩ := expandLoop_spec b w ps.elems none ps (elems_pairwise ps)
      (fun p hp => hc p (mem_elems.1 hp)) (by simp)
    refine ⟨R, hR, ?_⟩
    intro q
    rw [hq]
    simp only [mem_elems]
    constructor
    · rintro (h | h)
      · obtain ⟨ds, -, hds⟩ := item_floor (hc q h).1
        obtain ⟨ns, -, hns⟩ := item_next (hc q h).2
        have h1 := hds.2.1; have h2 := hns.2.1
        exact ⟨q, h, ds, ns, hds, hns, by omega, by omega⟩
      · exact h
    · exact Or.inr

theorem sameDoc_iff {b : Bitmap} {p q d n : Nat} (hd : IsFloor b p d) (hn : IsNext b p n) :
    SameDoc b p q ↔ d ≤ q ∧ q < n := by
  constructor
  · intro h
    refine ⟨(h d hd.1).1 hd.2.1, ?_⟩
    by_contra hc
    have := (h n hn.1).2 (by omega)
    have := hn.2.1; omega
  · rintro ⟨h1, h2⟩ x hx
    constructor
    · intro hxp; exact le_trans (hd.2.2 x hx hxp) h1
    · intro hxq
      by_contra hc
      have := hn.2.2 x hx (by omega); omega

end Hyperreal
