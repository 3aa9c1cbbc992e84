import Verif.Model.Positions
import Verif.Lemmas.Window
import Verif.Lemmas.Dict
import Verif.Lemmas.Moves

namespace Hyperreal
open Spec Bitmap

/-! ## Runs -/

/-- The passages found by the walk, as intervals of positions.  `D` numbers the documents. -/
def emits (D : Nat → Nat) (w : Nat) : Nat → Nat → List Nat → List (Nat × Nat)
  | s, l, [] => if l ≠ s then [(s, l)] else []
  | s, l, p :: ps => if D p ≠ D l ∨ p - l > w then (s, l) :: emits D w p p ps else emits D w s p ps

section
variable {D : Nat → Nat} {w : Nat}

theorem emits_ends (ps : List Nat) : ∀ {s l : Nat}, s ≤ l → D s = D l → (l :: ps).Pairwise (· < ·) →
    ∀ e ∈ emits D w s l ps, e.1 ≤ e.2 ∧ D e.1 = D e.2 ∧ (e.1 = s ∨ e.1 ∈ ps) ∧ (e.2 = l ∨ e.2 ∈ ps) := by
  induction ps with
  | nil =>
    intro s l hsl hD _ e he
    simp only [emits] at he
    split at he <;> simp at he
    subst he
    exact ⟨hsl, hD, Or.inl rfl, Or.inl rfl⟩
  | cons p ps ih =>
    intro s l hsl hD hs e he
    rw [List.pairwise_cons] at hs
    simp only [emits] at he
    split at he
    · rcases List.mem_cons.1 he with rfl | he
      · exact ⟨hsl, hD, Or.inl rfl, Or.inl rfl⟩
      · obtain ⟨a, b, c, d⟩ := ih le_rfl rfl hs.2 e he
        refine ⟨a, b, Or.inr ?_, Or.inr ?_⟩
        · rcases c with c | c <;> simp [c]
        · rcases d with d | d <;> simp [d]
    · rename_i hn
      push Not at hn
      have := hs.1 p (by simp)
      obtain ⟨a, b, c, d⟩ := ih (by omega) (by rw [hD, hn.1]) hs.2 e he
      refine ⟨a, b, ?_, Or.inr ?_⟩
      · rcases c with c | c <;> simp [c]
      · rcases d with d | d <;> simp [d]

theorem emits_apart (hm : ∀ a b, a ≤ b → D a ≤ D b) (ps : List Nat) : ∀ {s l : Nat}, s ≤ l → D s = D l →
    (l :: ps).Pairwise (· < ·) →
    (emits D w s l ps).Pairwise (fun a b => a.2 < b.1 ∧ (D a.2 = D b.1 → a.2 + w < b.1)) := by
  induction ps with
  | nil => intro s l _ _ _; simp only [emits]; split <;> simp
  | cons p ps ih =>
    intro s l hsl hD hs
    rw [List.pairwise_cons] at hs
    simp only [emits]
    have hlp := hs.1 p (by simp)
    split
    · rename_i hbr
      rw [List.pairwise_cons]
      refine ⟨?_, ih le_rfl rfl hs.2⟩
      intro e he
      obtain ⟨-, -, c, -⟩ := emits_ends ps le_rfl rfl hs.2 e he
      have hp : p ≤ e.1 := by
        rcases c with c | c
        · omega
        · exact le_of_lt ((List.pairwise_cons.1 hs.2).1 _ c)
      refine ⟨by show l < e.1; omega, ?_⟩
      intro hDe
      show l + w < e.1
      rcases hbr with h | h
      · have h1 := hm l p (by omega)
        have h2 := hm p e.1 hp
        simp only at hDe
        omega
      · omega
    · rename_i hn
      push Not at hn
      exact ih (by omega) (by rw [hD, hn.1]) hs.2

/-- A run that has begun is emitted. -/
theorem emits_begun (ps : List Nat) : ∀ {s l : Nat}, s < l → (l :: ps).Pairwise (· < ·) →
    ∃ e ∈ emits D w s l ps, e.1 = s ∧ l ≤ e.2 := by
  induction ps with
  | nil => intro s l h _; exact ⟨(s, l), by simp [emits]; omega, rfl, le_rfl⟩
  | cons p ps ih =>
    intro s l h hs
    rw [List.pairwise_cons] at hs
    have hlp := hs.1 p (by simp)
    simp only [emits]
    split
    · exact ⟨(s, l), by simp, rfl, le_rfl⟩
    · obtain ⟨e, h1, h2, h3⟩ := ih (s := s) (l := p) (by omega) hs.2
      exact ⟨e, h1, h2, by omega⟩

/-- Neighbours are in one run. -/
theorem emits_together (hm : ∀ a b, a ≤ b → D a ≤ D b) (ps : List Nat) : ∀ {s l : Nat}, s ≤ l → D s = D l →
    (l :: ps).Pairwise (· < ·) → ∀ q ∈ l :: ps, ∀ q' ∈ l :: ps, q < q' → D q = D q' → q' ≤ q + w →
    ∃ e ∈ emits D w s l ps, e.1 ≤ q ∧ q' ≤ e.2 := by
  induction ps with
  | nil =>
    intro s l _ _ _ q hq q' hq' hlt
    simp at hq hq'; omega
  | cons p ps ih =>
    intro s l hsl hD hs q hq q' hq' hlt hDq hw
    rw [List.pairwise_cons] at hs
    have hlp := hs.1 p (by simp)
    have hq'2 : q' ∈ p :: ps := by
      rcases List.mem_cons.1 hq' with rfl | h
      · rcases List.mem_cons.1 hq with rfl | h
        · omega
        · have := hs.1 q h; omega
      · exact h
    have hpq' : p ≤ q' := by
      rcases List.mem_cons.1 hq'2 with h | h
      · omega
      · exact le_of_lt ((List.pairwise_cons.1 hs.2).1 _ h)
    rcases List.mem_cons.1 hq with hql | hq2
    · subst hql
      have h1 := hm q p (by omega)
      have h2 := hm p q' hpq'
      have hn : ¬ (D p ≠ D q ∨ p - q > w) := by push Not; omega
      simp only [emits]
      rw [if_neg hn]
      rcases List.mem_cons.1 hq'2 with h | h
      · subst h
        obtain ⟨e, e1, e2, e3⟩ := emits_begun (D := D) (w := w) ps (s := s) (l := q') (by omega) hs.2
        exact ⟨e, e1, by omega, e3⟩
      · have hlt' := (List.pairwise_cons.1 hs.2).1 _ h
        obtain ⟨e, e1, e2, e3⟩ := ih (s := s) (l := p) (by omega) (by omega) hs.2 p (by simp) q' hq'2 hlt' (by omega) (by omega)
        refine ⟨e, e1, ?_, e3⟩
        obtain ⟨-, -, c, -⟩ := emits_ends ps (s := s) (l := p) (by omega) (by omega) hs.2 e e1
        rcases c with c | c
        · omega
        · have := (List.pairwise_cons.1 hs.2).1 _ c; omega
    · simp only [emits]
      split
      · obtain ⟨e, e1, e2⟩ := ih le_rfl rfl hs.2 q hq2 q' hq'2 hlt hDq hw
        exact ⟨e, by simp [e1], e2⟩
      · rename_i hn
        push Not at hn
        exact ih (by omega) (by omega) hs.2 q hq2 q' hq'2 hlt hDq hw

/-- Everything but possibly the last position is in a run. -/
theorem emits_cover (ps : List Nat) : ∀ {s l : Nat}, s ≤ l → (l :: ps).Pairwise (· < ·) →
    ∀ q ∈ l :: ps, (∃ e ∈ emits D w s l ps, e.1 ≤ q ∧ q ≤ e.2) ∨ ∀ q' ∈ l :: ps, q' ≤ q := by
  induction ps with
  | nil => intro s l _ _ q hq; right; simp at hq ⊢; omega
  | cons p ps ih =>
    intro s l hsl hs q hq
    have hs0 := hs
    rw [List.pairwise_cons] at hs
    have hlp := hs.1 p (by simp)
    rcases List.mem_cons.1 hq with h | h
    · subst h
      left
      simp only [emits]
      split
      · exact ⟨(s, q), by simp, hsl, le_rfl⟩
      · obtain ⟨e, e1, e2, e3⟩ := emits_begun (D := D) (w := w) ps (s := s) (l := p) (by omega) hs.2
        exact ⟨e, e1, by omega, by omega⟩
    · have key : (∃ e ∈ emits D w s l (p :: ps), e.1 ≤ q ∧ q ≤ e.2) ∨ ∀ q' ∈ p :: ps, q' ≤ q := by
        simp only [emits]
        split
        · rcases ih le_rfl hs.2 q h with ⟨e, e1, e2⟩ | h2
          · exact Or.inl ⟨e, by simp [e1], e2⟩
          · exact Or.inr h2
        · exact ih (by omega) hs.2 q h
      rcases key with k | k
      · exact Or.inl k
      · right
        intro q' hq'
        rcases List.mem_cons.1 hq' with h2 | h2
        · have := k p (by simp); omega
        · exact k q' h2

/-- Inside a run the next position is near. -/
theorem emits_linked (ps : List Nat) : ∀ {s l : Nat}, s ≤ l → (l :: ps).Pairwise (· < ·) →
    ∀ e ∈ emits D w s l ps, ∀ q ∈ l :: ps, e.1 ≤ q → q < e.2 → ∃ q' ∈ ps, q < q' ∧ q' ≤ q + w ∧ q' ≤ e.2 := by
  induction ps with
  | nil =>
    intro s l hsl _ e he q hq h1 h2
    simp only [emits] at he
    split at he <;> simp at he
    subst he
    simp at hq
    omega
  | cons p ps ih =>
    intro s l hsl hs e he q hq h1 h2
    rw [List.pairwise_cons] at hs
    have hlp := hs.1 p (by simp)
    have hge : ∀ x ∈ p :: ps, p ≤ x := by
      intro x hx
      rcases List.mem_cons.1 hx with rfl | hx
      · exact le_rfl
      · exact le_of_lt ((List.pairwise_cons.1 hs.2).1 _ hx)
    simp only [emits] at he
    split at he
    · rcases List.mem_cons.1 he with rfl | he
      · rcases List.mem_cons.1 hq with h | h
        · simp only at h2; omega
        · have := hge q h; simp only at h2; omega
      · rcases List.mem_cons.1 hq with h | h
        · -- `l` is before the next run
          have : p ≤ e.1 := by
            have : ∀ (ps : List Nat) {s l : Nat}, s ≤ l → (l :: ps).Pairwise (· < ·) → ∀ e ∈ emits D w s l ps, s ≤ e.1 := by
              intro ps
              induction ps with
              | nil => intro s l _ _ e he; simp only [emits] at he; split at he <;> simp at he; subst he; exact le_rfl
              | cons a ps ih2 =>
                intro s l hsl hs e he
                rw [List.pairwise_cons] at hs
                have := hs.1 a (by simp)
                simp only [emits] at he
                split at he
                · rcases List.mem_cons.1 he with rfl | he
                  · exact le_rfl
                  · have := ih2 le_rfl hs.2 e he; omega
                · exact ih2 (by omega) hs.2 e he
            exact this ps le_rfl hs.2 e he
          omega
        · obtain ⟨q', a, b⟩ := ih le_rfl hs.2 e he q h h1 h2
          exact ⟨q', by simp [a], b⟩
    · rename_i hn
      push Not at hn
      rcases List.mem_cons.1 hq with h | h
      · subst h
        refine ⟨p, by simp, hlp, by omega, ?_⟩
        by_contra hc
        -- the end of a run is a position
        have : ∀ (ps : List Nat) {s l : Nat}, s ≤ l → (l :: ps).Pairwise (· < ·) → ∀ e ∈ emits D w s l ps, l ≤ e.2 := by
          intro ps
          induction ps with
          | nil => intro s l _ _ e he; simp only [emits] at he; split at he <;> simp at he; subst he; exact le_rfl
          | cons a ps ih2 =>
            intro s l hsl hs e he
            rw [List.pairwise_cons] at hs
            have := hs.1 a (by simp)
            simp only [emits] at he
            split at he
            · rcases List.mem_cons.1 he with rfl | he
              · exact le_rfl
              · have := ih2 le_rfl hs.2 e he; omega
            · have := ih2 (by omega) hs.2 e he; omega
        have := this ps (s := s) (l := p) (by omega) hs.2 e he
        omega
      · obtain ⟨q', a, b⟩ := ih (by omega) hs.2 e he q h h1 h2
        exact ⟨q', by simp [a], b⟩

end

/-! ## `extend` -/

theorem get?_extend {κ β : Type} [DecidableEq κ] (d : Dict κ (List β)) (k : κ) (xs : List β) (x : κ) :
    (Dict.get? (Dict.extend d k xs) x).getD [] = (Dict.get? d x).getD [] ++ if x = k then xs else [] := by
  rw [Dict.extend, Dict.get?_set]
  split
  · rename_i h; subst h; simp
  · simp

theorem get?_foldl_extend {κ β ι : Type} [DecidableEq κ] (f : ι → κ) (g : ι → List β) (x : κ) (l : List ι) :
    ∀ d : Dict κ (List β), (Dict.get? (l.foldl (fun acc i => Dict.extend acc (f i) (g i)) d) x).getD [] =
      (Dict.get? d x).getD [] ++ l.flatMap (fun i => if x = f i then g i else []) := by
  induction l with
  | nil => intro d; simp
  | cons a l ih => intro d; rw [List.foldl_cons, ih, get?_extend]; simp [List.append_assoc]

theorem keys_extend {κ β : Type} [DecidableEq κ] (d : Dict κ (List β)) (k : κ) (xs : List β) (x : κ) :
    x ∈ (Dict.extend d k xs).keys ↔ x = k ∨ x ∈ d.keys := Dict.mem_keys_set _ _ _ _

theorem nodup_extend {κ β : Type} [DecidableEq κ] {d : Dict κ (List β)} (hn : d.keys.Nodup) (k : κ) (xs : List β) :
    (Dict.extend d k xs).keys.Nodup := Dict.nodup_set hn _ _

/-! ## The walk -/

section
variable {docs bounds : Bitmap}

/-- The position lies in a document of the partition. -/
def Inside (bounds : Bitmap) (p : Nat) : Prop := (∃ b ∈ bounds, b ≤ p) ∧ ∃ b ∈ bounds, p < b

/-- First position of the document of `p`. -/
def loAt (bounds : Bitmap) (p : Nat) : Nat := (bounds.elems[bounds.rank p - 1]?).getD 0
/-- First position after the document of `p`. -/
def nextAt (bounds : Bitmap) (p : Nat) : Nat := (bounds.elems[bounds.rank p]?).getD 0
/-- The document of `p`. -/
def docAt (docs bounds : Bitmap) (p : Nat) : Nat := (docs.elems[bounds.rank p - 1]?).getD 0

theorem rank_mono (b : Bitmap) (p q : Nat) (h : p ≤ q) : b.rank p ≤ b.rank q := by
  unfold Bitmap.rank
  apply Finset.card_le_card
  intro x hx
  simp only [Finset.mem_filter] at hx ⊢
  exact ⟨hx.1, by omega⟩

theorem Inside.rank {p : Nat} (h : Inside bounds p) : 0 < bounds.rank p ∧ bounds.rank p < bounds.elems.length := by
  obtain ⟨⟨x, hx, hxp⟩, ⟨y, hy, hyp⟩⟩ := h
  constructor
  · unfold Bitmap.rank; rw [Finset.card_pos]; exact ⟨x, by simp [hx, hxp]⟩
  · obtain ⟨j, hj, rfl⟩ := List.getElem_of_mem (mem_elems.2 hy)
    by_contra hc
    have := getElem_le_of_lt_rank (x := p) hj (by omega)
    omega

theorem Inside.lo {p : Nat} (h : Inside bounds p) :
    bounds.elems[bounds.rank p - 1]? = some (loAt bounds p) ∧ IsFloor bounds p (loAt bounds p) := by
  obtain ⟨h1, h2⟩ := h.rank
  have e : bounds.elems[bounds.rank p - 1]? = some (loAt bounds p) := by
    rw [loAt, List.getElem?_eq_getElem (by omega)]; rfl
  refine ⟨e, ?_⟩
  obtain ⟨d, hd, hf⟩ := item_floor h.1
  have : ((bounds.rank p : Int) - 1) = ((bounds.rank p - 1 : Nat) : Int) := by omega
  rw [this, item_nat (by omega)] at hd
  rw [List.getElem?_eq_getElem (by omega)] at e
  simp only [Except.ok.injEq] at hd
  simp only [Option.some.injEq] at e
  rw [← e, hd]; exact hf

theorem Inside.next {p : Nat} (h : Inside bounds p) :
    bounds.elems[bounds.rank p]? = some (nextAt bounds p) ∧ IsNext bounds p (nextAt bounds p) := by
  obtain ⟨h1, h2⟩ := h.rank
  have e : bounds.elems[bounds.rank p]? = some (nextAt bounds p) := by
    rw [nextAt, List.getElem?_eq_getElem (by omega)]; rfl
  refine ⟨e, ?_⟩
  obtain ⟨d, hd, hf⟩ := item_next h.2
  rw [item_nat (by omega)] at hd
  rw [List.getElem?_eq_getElem (by omega)] at e
  simp only [Except.ok.injEq] at hd
  simp only [Option.some.injEq] at e
  rw [← e, hd]; exact hf

theorem Inside.doc (ht : bounds.elems.length = docs.elems.length + 1) {p : Nat} (h : Inside bounds p) :
    docs.elems[bounds.rank p - 1]? = some (docAt docs bounds p) := by
  obtain ⟨h1, h2⟩ := h.rank
  rw [docAt, List.getElem?_eq_getElem (by omega)]; rfl

theorem enterDoc_eq (ht : bounds.elems.length = docs.elems.length + 1) {p : Nat} (h : Inside bounds p) :
    enterDoc docs bounds p = .ok ⟨p, p, loAt bounds p, nextAt bounds p, docAt docs bounds p⟩ := by
  obtain ⟨h1, h2⟩ := h.rank
  have e : ((bounds.rank p : Int) - 1) = ((bounds.rank p - 1 : Nat) : Int) := by omega
  have a := h.lo.1
  have b := h.next.1
  have c := h.doc ht
  rw [List.getElem?_eq_getElem (by omega), Option.some.injEq] at a b c
  have a' : bounds.item ((bounds.rank p : Int) - 1) = .ok (loAt bounds p) := by rw [e, item_nat (by omega), a]
  have b' : bounds.item (bounds.rank p : Int) = .ok (nextAt bounds p) := by rw [item_nat (by omega), b]
  have c' : docs.item ((bounds.rank p : Int) - 1) = .ok (docAt docs bounds p) := by rw [e, item_nat (by omega), c]
  simp only [enterDoc, a', b', c', bind, Except.bind, pure, Except.pure]

theorem rank_eq_of_lt_next {p q : Nat} (h : Inside bounds p) (hpq : p ≤ q) (hq : q < nextAt bounds p) :
    bounds.rank q = bounds.rank p := by
  unfold Bitmap.rank
  congr 1
  ext x
  simp only [Finset.mem_filter]
  constructor
  · rintro ⟨h1, h2⟩
    refine ⟨h1, ?_⟩
    by_contra hc
    have := h.next.2.2.2 x h1 (by omega)
    omega
  · rintro ⟨h1, h2⟩; exact ⟨h1, by omega⟩

theorem next_le_iff {p q : Nat} (h : Inside bounds p) (hpq : p ≤ q) :
    nextAt bounds p ≤ q ↔ bounds.rank q ≠ bounds.rank p := by
  constructor
  · intro hq e
    have h1 := h.next.1
    obtain ⟨h2, h3⟩ := h.rank
    have : nextAt bounds p ≤ q := hq
    have hlt : bounds.rank q ≤ bounds.rank p := by omega
    have := lt_getElem_of_rank_le (x := q) h3 hlt
    rw [List.getElem?_eq_getElem h3, Option.some.injEq] at h1
    omega
  · intro hne
    by_contra hc
    exact hne (rank_eq_of_lt_next h hpq (by omega))

theorem loAt_congr {p q : Nat} (h : bounds.rank p = bounds.rank q) : loAt bounds p = loAt bounds q := by
  rw [loAt, loAt, h]
theorem docAt_congr {p q : Nat} (h : bounds.rank p = bounds.rank q) : docAt docs bounds p = docAt docs bounds q := by
  rw [docAt, docAt, h]

/-- The passage of a run. -/
def passageAt (field : String) (bounds positions : Bitmap) (e : Nat × Nat) : Passage :=
  ⟨field, e.1 - loAt bounds e.1, e.2 - loAt bounds e.1, positions.rangeCard e.1 (e.2 + 1)⟩

theorem walk_eq (ht : bounds.elems.length = docs.elems.length + 1) (field : String) (positions : Bitmap) (w : Nat)
    (ps : List Nat) : ∀ (s l : Nat) (scores : Dict Nat (List Passage)), s ≤ l → bounds.rank s = bounds.rank l →
    Inside bounds s → (l :: ps).Pairwise (· < ·) → (∀ p ∈ ps, Inside bounds p) →
    walk field docs bounds positions w ⟨s, l, loAt bounds s, nextAt bounds s, docAt docs bounds s⟩ ps scores =
      .ok ((emits bounds.rank w s l ps).foldl
        (fun acc e => Dict.extend acc (docAt docs bounds e.1) [passageAt field bounds positions e]) scores) := by
  induction ps with
  | nil =>
    intro s l scores hsl hr hi _ _
    simp only [walk, emits]
    split <;> rfl
  | cons p ps ih =>
    intro s l scores hsl hr hi hs hin
    rw [List.pairwise_cons] at hs
    have hlp := hs.1 p (by simp)
    simp only [walk, emits]
    by_cases h1 : p ≥ nextAt bounds s
    · have h1' := (next_le_iff hi (by omega)).1 h1
      rw [if_pos h1, if_pos (Or.inl (by omega)), enterDoc_eq ht (hin p (by simp))]
      show walk field docs bounds positions w _ ps _ = _
      rw [ih p p _ le_rfl rfl (hin p (by simp)) hs.2 (fun q hq => hin q (by simp [hq])), List.foldl_cons]
      rfl
    · have h1' : bounds.rank p = bounds.rank s := by
        by_contra hc; exact h1 ((next_le_iff hi (by omega)).2 hc)
      rw [if_neg h1]
      by_cases h2 : p - l > w
      · rw [if_pos h2, if_pos (Or.inr h2)]
        have e1 := loAt_congr h1'
        have e2 := docAt_congr (docs := docs) h1'
        have e3 : nextAt bounds p = nextAt bounds s := by rw [nextAt, nextAt, h1']
        show walk field docs bounds positions w ⟨p, p, loAt bounds s, nextAt bounds s, docAt docs bounds s⟩ ps _ = _
        rw [← e1, ← e2, ← e3, ih p p _ le_rfl rfl (hin p (by simp)) hs.2 (fun q hq => hin q (by simp [hq])), List.foldl_cons]
        rw [e1, e2]
        rfl
      · rw [if_neg h2, if_neg (by push Not; omega)]
        exact ih s p _ (by omega) (by omega) hi hs.2 (fun q hq => hin q (by simp [hq]))

/-- The runs of a set of positions. -/
def runsOf (bounds positions : Bitmap) (w : Nat) : List (Nat × Nat) :=
  match positions.elems with
  | [] => []
  | p :: ps => emits bounds.rank w p p ps

theorem passagesOf_eq (ht : bounds.elems.length = docs.elems.length + 1) (field : String) (positions : Bitmap) (w : Nat)
    (hin : ∀ p ∈ positions, Inside bounds p) :
    passagesOf field docs bounds positions w = .ok ((runsOf bounds positions w).foldl
      (fun acc e => Dict.extend acc (docAt docs bounds e.1) [passageAt field bounds positions e]) []) := by
  have hs := elems_pairwise positions
  rw [passagesOf, runsOf]
  cases he : positions.elems with
  | nil => rfl
  | cons p ps =>
    rw [he] at hs
    have hin' : ∀ q ∈ p :: ps, Inside bounds q := fun q hq => hin q (by rw [← mem_elems, he]; exact hq)
    show (enterDoc docs bounds p >>= fun st => _) = _
    rw [enterDoc_eq ht (hin' p (by simp))]
    exact walk_eq ht field positions w ps p p [] le_rfl rfl (hin' p (by simp)) hs (fun q hq => hin' q (by simp [hq]))

theorem runsOf_ends {positions : Bitmap} {w : Nat} {e : Nat × Nat} (he : e ∈ runsOf bounds positions w) :
    e.1 ≤ e.2 ∧ bounds.rank e.1 = bounds.rank e.2 ∧ e.1 ∈ positions ∧ e.2 ∈ positions := by
  have hs := elems_pairwise positions
  rw [runsOf] at he
  cases hp : positions.elems with
  | nil => rw [hp] at he; simp at he
  | cons p ps =>
    rw [hp] at he hs
    obtain ⟨a, b, c, d⟩ := emits_ends ps le_rfl rfl hs e he
    refine ⟨a, b, ?_, ?_⟩
    · rw [← mem_elems, hp]; rcases c with c | c <;> simp [c]
    · rw [← mem_elems, hp]; rcases d with d | d <;> simp [d]

theorem runsOf_apart (positions : Bitmap) (w : Nat) : (runsOf bounds positions w).Pairwise
    (fun a b => a.2 < b.1 ∧ (bounds.rank a.2 = bounds.rank b.1 → a.2 + w < b.1)) := by
  have hs := elems_pairwise positions
  rw [runsOf]
  cases hp : positions.elems with
  | nil => simp
  | cons p ps => rw [hp] at hs; exact emits_apart (rank_mono bounds) ps le_rfl rfl hs

theorem runsOf_together {positions : Bitmap} {w q q' : Nat} (hq : q ∈ positions) (hq' : q' ∈ positions) (hlt : q < q')
    (hr : bounds.rank q = bounds.rank q') (hw : q' ≤ q + w) : ∃ e ∈ runsOf bounds positions w, e.1 ≤ q ∧ q' ≤ e.2 := by
  have hs := elems_pairwise positions
  rw [← mem_elems] at hq hq'
  rw [runsOf]
  cases hp : positions.elems with
  | nil => rw [hp] at hq; simp at hq
  | cons p ps =>
    rw [hp] at hs hq hq'
    exact emits_together (rank_mono bounds) ps le_rfl rfl hs q hq q' hq' hlt hr hw

theorem runsOf_cover {positions : Bitmap} {w q : Nat} (hq : q ∈ positions) :
    (∃ e ∈ runsOf bounds positions w, e.1 ≤ q ∧ q ≤ e.2) ∨ ∀ q' ∈ positions, q' ≤ q := by
  have hs := elems_pairwise positions
  have hm : ∀ q', q' ∈ positions ↔ q' ∈ positions.elems := fun q' => mem_elems.symm
  simp only [hm] at *
  rw [runsOf]
  cases hp : positions.elems with
  | nil => rw [hp] at hq; simp at hq
  | cons p ps => rw [hp] at hs hq; exact emits_cover ps le_rfl hs q hq

theorem runsOf_linked {positions : Bitmap} {w q : Nat} {e : Nat × Nat} (he : e ∈ runsOf bounds positions w)
    (hq : q ∈ positions) (h1 : e.1 ≤ q) (h2 : q < e.2) : ∃ q' ∈ positions, q < q' ∧ q' ≤ q + w ∧ q' ≤ e.2 := by
  have hs := elems_pairwise positions
  have hm : ∀ q', q' ∈ positions ↔ q' ∈ positions.elems := fun q' => mem_elems.symm
  simp only [hm] at *
  rw [runsOf] at he
  cases hp : positions.elems with
  | nil => rw [hp] at hq; simp at hq
  | cons p ps =>
    rw [hp] at hs hq he
    obtain ⟨q', a, b⟩ := emits_linked ps le_rfl hs e he q hq h1 h2
    exact ⟨q', by simp [a], b⟩

end

/-! ## Narrowing -/

section
variable {db : DB} {first w : Nat} {bounds : Bitmap}

theorem mem_unionPositions (features : List Nat) (p : Nat) :
    p ∈ unionPositions db first features ↔ ∃ f ∈ features, p ∈ partitionPositions db first f := by
  have : ∀ (l : List Nat) (acc : Bitmap), p ∈ l.foldl (fun acc f => acc ∪ partitionPositions db first f) acc ↔
      p ∈ acc ∨ ∃ f ∈ l, p ∈ partitionPositions db first f := by
    intro l
    induction l with
    | nil => simp
    | cons a l ih => intro acc; rw [List.foldl_cons, ih]; simp [or_assoc]
  rw [unionPositions, this]; simp

theorem window_total (P : Bitmap) (hc : ∀ p ∈ P, Inside bounds p) :
    ∃ R, expandWindow P bounds w = .ok R ∧ ∀ q, q ∈ R ↔ ∃ p ∈ P, Reach bounds w p q :=
  expandWindow_spec P bounds w hc

/-- Narrowing does not fail, and what it returns is near every clause. -/
theorem narrow_sound (cs : List (List Nat)) : ∀ (S V : Bitmap),
    (∀ c ∈ cs, ∀ p ∈ unionPositions db first c, Inside bounds p) →
    narrow db first bounds w cs S V = .ok none ∨
    ∃ S' V', narrow db first bounds w cs S V = .ok (some (S', V')) ∧
      (∀ p ∈ S', p ∈ S ∨ ∃ c ∈ cs, p ∈ unionPositions db first c) ∧ (∀ p ∈ V', p ∈ V) ∧
      ∀ c ∈ cs, ∀ p ∈ V', ∃ q ∈ unionPositions db first c, Reach bounds w q p := by
  induction cs with
  | nil => intro S V _; exact Or.inr ⟨S, V, rfl, fun p h => Or.inl h, fun p h => h, by simp⟩
  | cons c cs ih =>
    intro S V hc
    simp only [narrow]
    split
    · exact Or.inl rfl
    · obtain ⟨R, hR, hq⟩ := window_total (w := w) (unionPositions db first c ∩ V)
        (fun p hp => hc c (by simp) p (Finset.mem_inter.1 hp).1)
      rw [hR]
      rcases ih (S ∪ unionPositions db first c ∩ V) (V ∩ R) (fun c' h => hc c' (by simp [h])) with h | ⟨S', V', h1, h2, h3, h4⟩
      · exact Or.inl h
      · refine Or.inr ⟨S', V', h1, ?_, ?_, ?_⟩
        · intro p hp
          rcases h2 p hp with h | ⟨c', h, h'⟩
          · rw [Finset.mem_union, Finset.mem_inter] at h
            rcases h with h | h
            · exact Or.inl h
            · exact Or.inr ⟨c, by simp, h.1⟩
          · exact Or.inr ⟨c', by simp [h], h'⟩
        · intro p hp; exact (Finset.mem_inter.1 (h3 p hp)).1
        · intro c' hc' p hp
          rcases List.mem_cons.1 hc' with rfl | h
          · obtain ⟨q, hq1, hq2⟩ := (hq p).1 (Finset.mem_inter.1 (h3 p hp)).2
            exact ⟨q, (Finset.mem_inter.1 hq1).1, hq2⟩
          · exact h4 c' h p hp

/-- Positions that are mutually near and hit every clause survive. -/
theorem narrow_complete (T : Finset Nat) (hT : ∀ p ∈ T, ∀ q ∈ T, Reach bounds w p q) (cs : List (List Nat)) :
    ∀ (S V : Bitmap), (∀ c ∈ cs, ∀ p ∈ unionPositions db first c, Inside bounds p) → T ⊆ V →
    (∀ c ∈ cs, ∃ p ∈ T, p ∈ unionPositions db first c) →
    ∃ S' V', narrow db first bounds w cs S V = .ok (some (S', V')) ∧ S ⊆ S' ∧ T ⊆ V' ∧
      ∀ c ∈ cs, ∀ p ∈ T, p ∈ unionPositions db first c → p ∈ S' := by
  induction cs with
  | nil => intro S V _ h _; exact ⟨S, V, rfl, subset_rfl, h, by simp⟩
  | cons c cs ih =>
    intro S V hc hV hh
    obtain ⟨t, ht, htc⟩ := hh c (by simp)
    simp only [narrow]
    rw [if_neg (by
      apply Finset.ne_empty_of_mem (a := t)
      exact Finset.mem_inter.2 ⟨htc, hV ht⟩)]
    obtain ⟨R, hR, hq⟩ := window_total (w := w) (unionPositions db first c ∩ V)
        (fun p hp => hc c (by simp) p (Finset.mem_inter.1 hp).1)
    rw [hR]
    obtain ⟨S', V', h1, h2, h3, h4⟩ := ih (S ∪ unionPositions db first c ∩ V) (V ∩ R) (fun c' h => hc c' (by simp [h]))
      (by
        intro p hp
        refine Finset.mem_inter.2 ⟨hV hp, (hq p).2 ⟨t, Finset.mem_inter.2 ⟨htc, hV ht⟩, hT t ht p hp⟩⟩)
      (fun c' h => hh c' (by simp [h]))
    refine ⟨S', V', h1, fun p hp => h2 (Finset.mem_union_left _ hp), h3, ?_⟩
    intro c' hc' p hp hpc
    rcases List.mem_cons.1 hc' with rfl | h
    · exact h2 (Finset.mem_union_right _ (Finset.mem_inter.2 ⟨hpc, hV hp⟩))
    · exact h4 c' h p hp hpc

/-- The result of a partition: the runs of a set of positions near every clause, containing all mutually near ones. -/
theorem scorePartition_spec {field : String} {m : PosDocRow} (hm : partitionHeader db field first = .ok m)
    (ht : m.bounds.elems.length = m.docs.elems.length + 1)
    (arrange : List (Nat × List Nat) → List (Nat × List Nat)) (ha : ∀ l, (arrange l).Perm l) (clauses : List (List Nat))
    (hne : clauses ≠ []) (hc : ∀ c ∈ clauses, ∀ p ∈ unionPositions db first c, Inside m.bounds p) :
    ∃ S : Bitmap, scorePartition arrange db field first clauses w = .ok ((runsOf m.bounds S w).foldl
        (fun acc e => Dict.extend acc (docAt m.docs m.bounds e.1) [passageAt field m.bounds S e]) []) ∧
      (∀ p ∈ S, Inside m.bounds p) ∧
      (∀ p ∈ S, ∃ c ∈ clauses, p ∈ unionPositions db first c) ∧
      (∀ p ∈ S, ∀ c ∈ clauses, ∃ q ∈ unionPositions db first c, Reach m.bounds w q p) ∧
      ∀ T : Finset Nat, (∀ p ∈ T, ∀ q ∈ T, Reach m.bounds w p q) → (∀ c ∈ clauses, ∃ p ∈ T, p ∈ unionPositions db first c) →
        (∀ p ∈ T, ∃ c ∈ clauses, p ∈ unionPositions db first c) → T ⊆ S := by
  have hp := ha (clauses.map (fun c => (clauseWeight db first c, c)))
  rw [scorePartition, hm]
  simp only [bind, Except.bind]
  cases hl : arrange (clauses.map (fun c => (clauseWeight db first c, c))) with
  | nil =>
    rw [hl] at hp
    have := hp.symm.eq_nil
    simp at this
    exact absurd this hne
  | cons c cs =>
    rw [hl] at hp
    have hmem : ∀ x : List Nat, x ∈ clauses ↔ x = c.2 ∨ x ∈ cs.map (·.2) := by
      intro x
      have := (hp.map (·.2)).mem_iff (a := x)
      simp only [List.map_cons, List.map_map, List.mem_cons] at this
      rw [this]
      simp [Function.comp_def]
    have hcov : ∀ x ∈ cs.map (·.2), ∀ p ∈ unionPositions db first x, Inside m.bounds p :=
      fun x hx => hc x ((hmem x).2 (Or.inr hx))
    have hc0 := hc c.2 ((hmem _).2 (Or.inl rfl))
    obtain ⟨V, hV, hVq⟩ := window_total (w := w) (unionPositions db first c.2) hc0
    simp only [hV]
    rcases narrow_sound (w := w) (cs.map (·.2)) (unionPositions db first c.2) V hcov with h | ⟨S', V', h1, h2, h3, h4⟩
    · simp only [h]
      refine ⟨∅, by simp [runsOf], by simp, by simp, by simp, ?_⟩
      intro T hT hh hsub
      obtain ⟨t0, ht0, ht0c⟩ := hh c.2 ((hmem _).2 (Or.inl rfl))
      obtain ⟨S', V', g1, -⟩ := narrow_complete (w := w) T hT (cs.map (·.2)) (unionPositions db first c.2) V hcov
        (fun p hp => (hVq p).2 ⟨t0, ht0c, hT t0 ht0 p hp⟩) (fun x hx => hh x ((hmem x).2 (Or.inr hx)))
      rw [g1] at h; cases h
    · simp only [h1]
      have hin : ∀ p ∈ S' ∩ V', ∃ x ∈ clauses, p ∈ unionPositions db first x := by
        intro p hp
        rcases h2 p (Finset.mem_inter.1 hp).1 with h | ⟨x, hx, h⟩
        · exact ⟨c.2, (hmem _).2 (Or.inl rfl), h⟩
        · exact ⟨x, (hmem x).2 (Or.inr hx), h⟩
      have hins : ∀ p ∈ S' ∩ V', Inside m.bounds p := by
        intro p hp
        obtain ⟨x, hx, h⟩ := hin p hp
        exact hc x hx p h
      refine ⟨S' ∩ V', passagesOf_eq ht field _ w hins, hins, hin, ?_, ?_⟩
      · intro p hp x hx
        have hpv := (Finset.mem_inter.1 hp).2
        rcases (hmem x).1 hx with rfl | hx
        · exact (hVq p).1 (h3 p hpv)
        · exact h4 x hx p hpv
      · intro T hT hh hsub
        obtain ⟨t0, ht0, ht0c⟩ := hh c.2 ((hmem _).2 (Or.inl rfl))
        obtain ⟨S2, V2, g1, g2, g3, g4⟩ := narrow_complete (w := w) T hT (cs.map (·.2)) (unionPositions db first c.2) V hcov
          (fun p hp => (hVq p).2 ⟨t0, ht0c, hT t0 ht0 p hp⟩) (fun x hx => hh x ((hmem x).2 (Or.inr hx)))
        rw [h1] at g1
        simp only [Except.ok.injEq, Option.some.injEq, Prod.mk.injEq] at g1
        obtain ⟨rfl, rfl⟩ := g1
        intro p hp
        refine Finset.mem_inter.2 ⟨?_, g3 hp⟩
        obtain ⟨x, hx, hpx⟩ := hsub p hp
        rcases (hmem x).1 hx with rfl | hx
        · exact g2 hpx
        · exact g4 x hx p hp hpx

end
end Hyperreal
