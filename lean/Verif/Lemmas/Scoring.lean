import Verif.Model.Scoring
import Verif.Spec.Scoring
import Verif.Lemmas.Bitmap
import Mathlib.Tactic

/-! Lemmas about the scoring of moves. -/

namespace Hyperreal
open Spec

theorem probed_eq_seen (docs : Nat → Bitmap) (probe : Option Bitmap) : probed docs probe = seen docs probe := by
  funext f
  cases probe with
  | none => simp [probed, seen]
  | some p =>
    by_cases h : p = ∅
    · simp [probed, seen, h]
    · simp [probed, seen, h, Finset.card_eq_zero]

theorem coverLoop_snoc (docs : Nat → Bitmap) (l : List Nat) (f : Nat) :
    coverLoop docs (l ++ [f]) = ⟨(coverLoop docs l).union ∪ docs f,
      (coverLoop docs l).twice ∪ ((coverLoop docs l).union ∩ docs f), (coverLoop docs l).hits + (docs f).card⟩ := by
  simp [coverLoop]

theorem coverLoop_spec (docs : Nat → Bitmap) (l : List Nat) (hn : l.Nodup) :
    (coverLoop docs l).union = covered docs l.toFinset ∧
    (coverLoop docs l).hits = (hits docs l.toFinset : Int) ∧
    ∀ d, d ∈ (coverLoop docs l).twice ↔ ∃ f ∈ l, ∃ g ∈ l, f ≠ g ∧ d ∈ docs f ∧ d ∈ docs g := by
  induction l using List.reverseRecOn with
  | nil => simp [coverLoop, covered, hits]
  | append_singleton l f ih =>
    have hn' : l.Nodup := (List.nodup_append.1 hn).1
    have hf : f ∉ l := fun h => (List.nodup_append.1 hn).2.2 f h f (by simp) rfl
    obtain ⟨h1, h2, h3⟩ := ih hn'
    have e : (l ++ [f]).toFinset = insert f l.toFinset := by
      ext x; simp
    rw [coverLoop_snoc]
    refine ⟨?_, ?_, ?_⟩
    · simp only [h1, covered, e, Finset.biUnion_insert]
      exact Finset.union_comm _ _
    · simp only [h2, hits, e]
      rw [Finset.sum_insert (by simpa using hf)]
      push_cast
      ring
    · intro d
      simp only [Finset.mem_union, Finset.mem_inter, h3, h1, covered, Finset.mem_biUnion, List.mem_toFinset,
        List.mem_append, List.mem_singleton]
      constructor
      · rintro (⟨a, ha, b, hb, hab, hda, hdb⟩ | ⟨⟨a, ha, hda⟩, hdf⟩)
        · exact ⟨a, Or.inl ha, b, Or.inl hb, hab, hda, hdb⟩
        · exact ⟨a, Or.inl ha, f, Or.inr rfl, fun h => hf (h ▸ ha), hda, hdf⟩
      · rintro ⟨a, ha, b, hb, hab, hda, hdb⟩
        rcases ha with ha | rfl
        · rcases hb with hb | rfl
          · exact Or.inl ⟨a, ha, b, hb, hab, hda, hdb⟩
          · exact Or.inr ⟨⟨a, ha, hda⟩, hdb⟩
        · rcases hb with hb | rfl
          · exact Or.inr ⟨⟨b, hb, hdb⟩, hda⟩
          · exact absurd rfl hab

theorem pyDiv_ok {a b : Int} (h : b ≠ 0) : pyDiv a b = .ok ((a : Rat) / (b : Rat)) := by simp [pyDiv, h]

theorem objectiveExpr_ok {h c n : Int} (h1 : c + n ≠ 0) (h2 : h + n ≠ 0) :
    objectiveExpr h c n = .ok ((h : Rat) / ((c : Rat) + n) - (h : Rat) / ((h : Rat) + n)) := by
  simp [objectiveExpr, pyDiv_ok h1, pyDiv_ok h2, bind, Except.bind, pure, Except.pure]

/-- Documents of `f` that no other feature of the cluster has. -/
theorem only_once_spec (docs : Nat → Bitmap) (l : List Nat) (hn : l.Nodup) (f : Nat) (hf : f ∈ l) :
    docs f ∩ ((coverLoop docs l).union \ (coverLoop docs l).twice) = docs f \ covered docs (l.toFinset.erase f) := by
  obtain ⟨h1, -, h3⟩ := coverLoop_spec docs l hn
  ext d
  simp only [Finset.mem_inter, Finset.mem_sdiff, h3, h1, covered, Finset.mem_biUnion, List.mem_toFinset, Finset.mem_erase]
  constructor
  · rintro ⟨hd, -, hno⟩
    exact ⟨hd, fun ⟨g, ⟨hgf, hg⟩, hdg⟩ => hno ⟨f, hf, g, hg, fun h => hgf h.symm, hd, hdg⟩⟩
  · rintro ⟨hd, hno⟩
    refine ⟨hd, ⟨f, hf, hd⟩, ?_⟩
    rintro ⟨a, ha, b, hb, hab, hda, hdb⟩
    by_cases haf : a = f
    · exact hno ⟨b, ⟨fun h => hab (haf.trans h.symm), hb⟩, hdb⟩
    · exact hno ⟨a, ⟨haf, ha⟩, hda⟩

theorem covered_erase (docs : Nat → Bitmap) (G : Finset Nat) (f : Nat) (hf : f ∈ G) :
    covered docs G = docs f ∪ covered docs (G.erase f) := by
  conv_lhs => rw [← Finset.insert_erase hf]
  simp [covered, Finset.biUnion_insert]

theorem hits_erase (docs : Nat → Bitmap) (G : Finset Nat) (f : Nat) (hf : f ∈ G) :
    hits docs G = (docs f).card + hits docs (G.erase f) := by
  conv_lhs => rw [← Finset.insert_erase hf]
  simp [hits]

theorem overlaps_iff (docs : Nat → Bitmap) (G : Finset Nat) (f : Nat) :
    Overlaps docs f G ↔ (docs f ∩ covered docs (G.erase f)).Nonempty := by
  constructor
  · rintro ⟨g, hg, hgf, d, hd⟩
    rw [Finset.mem_inter] at hd
    exact ⟨d, by simp only [Finset.mem_inter, covered, Finset.mem_biUnion, Finset.mem_erase]; exact ⟨hd.1, g, ⟨hgf, hg⟩, hd.2⟩⟩
  · rintro ⟨d, hd⟩
    simp only [Finset.mem_inter, covered, Finset.mem_biUnion, Finset.mem_erase] at hd
    obtain ⟨hd, g, ⟨hgf, hg⟩, hdg⟩ := hd
    exact ⟨g, hg, hgf, d, Finset.mem_inter.2 ⟨hd, hdg⟩⟩

theorem covered_card_le (docs : Nat → Bitmap) (G : Finset Nat) : (covered docs G).card ≤ hits docs G :=
  Finset.card_biUnion_le

theorem removeScore_spec (docs : Nat → Bitmap) (l : List Nat) (hn : l.Nodup) (f : Nat) (hf : f ∈ l) :
    ∃ s, removeScore docs (coverLoop docs l) l.length (objective docs l.toFinset) f = .ok s ∧
      IsScore docs l.toFinset f s := by
  obtain ⟨h1, h2, -⟩ := coverLoop_spec docs l hn
  have hG : f ∈ l.toFinset := by simpa using hf
  have honce := only_once_spec docs l hn f hf
  have hcard : l.toFinset.card = l.length := List.toFinset_card_of_nodup hn
  have hce := covered_erase docs l.toFinset f hG
  have hhe := hits_erase docs l.toFinset f hG
  have hpos : 0 < l.length := List.length_pos_of_mem hf
  -- the remaining cover
  have e1 : (((coverLoop docs l).union.card : Int) - ((docs f \ covered docs (l.toFinset.erase f)).card : Int))
      = ((covered docs (l.toFinset.erase f)).card : Int) := by
    rw [h1, hce]
    have := Finset.card_sdiff_add_card (docs f) (covered docs (l.toFinset.erase f))
    omega
  have e2 : (coverLoop docs l).hits - ((docs f).card : Int) = (hits docs (l.toFinset.erase f) : Int) := by
    rw [h2, hhe]; push_cast; ring
  have e3 : (((docs f \ covered docs (l.toFinset.erase f)).card : Int) < ((docs f).card : Int)) ↔
      Overlaps docs f l.toFinset := by
    rw [overlaps_iff]
    have := Finset.card_sdiff_add_card_inter (docs f) (covered docs (l.toFinset.erase f))
    rw [← Finset.card_pos]
    omega
  have e4 : (((covered docs (l.toFinset.erase f)).card : Int) ≠ 0) ↔ (covered docs (l.toFinset.erase f)).Nonempty := by
    rw [← Finset.card_pos]; omega
  by_cases hov : Overlaps docs f l.toFinset
  · have hne : (covered docs (l.toFinset.erase f)).Nonempty := by
      obtain ⟨d, hd⟩ := (overlaps_iff docs l.toFinset f).1 hov
      exact ⟨d, (Finset.mem_inter.1 hd).2⟩
    have hcpos : 0 < (covered docs (l.toFinset.erase f)).card := Finset.card_pos.2 hne
    have hhpos : 0 < hits docs (l.toFinset.erase f) := lt_of_lt_of_le hcpos (covered_card_le _ _)
    have hob : objectiveExpr (hits docs (l.toFinset.erase f) : Int) ((covered docs (l.toFinset.erase f)).card : Int)
        ((l.length : Int) - 1) = .ok (objective docs (l.toFinset.erase f)) := by
      rw [objectiveExpr_ok (by omega) (by omega)]
      congr 1
      have hce' : (((l.toFinset.erase f).card : Nat) : Rat) = (l.length : Rat) - 1 := by
        rw [Finset.card_erase_of_mem hG, hcard, Nat.cast_sub (by omega)]; simp
      simp only [objective, hce']
      push_cast
      ring_nf
    refine ⟨objective docs l.toFinset - objective docs (l.toFinset.erase f), ?_, ?_⟩
    · simp only [removeScore, honce, e1, e2]
      rw [if_pos ⟨e4.2 hne, e3.2 hov⟩, hob]
      rfl
    · exact ⟨fun _ _ => rfl, fun _ h => absurd hov h, fun _ h => absurd hov h, fun h => absurd hG h, fun h => absurd hG h⟩
  · by_cases hne : (covered docs (l.toFinset.erase f)).Nonempty
    · refine ⟨-1, ?_, ?_⟩
      · simp only [removeScore, honce, e1, e2]
        rw [if_neg (fun h => hov (e3.1 h.2)), if_pos (e4.2 hne)]
        rfl
      · exact ⟨fun _ h => absurd h hov, fun _ _ _ => rfl, fun _ _ h => absurd h (Finset.nonempty_iff_ne_empty.1 hne),
          fun h => absurd hG h, fun h => absurd hG h⟩
    · refine ⟨0, ?_, ?_⟩
      · simp only [removeScore, honce, e1, e2]
        rw [if_neg (fun h => hov (e3.1 h.2)), if_neg (fun h => hne (e4.1 h))]
        rfl
      · exact ⟨fun _ h => absurd h hov, fun _ _ h => absurd h hne, fun _ _ _ => rfl,
          fun h => absurd hG h, fun h => absurd hG h⟩

theorem addScore_spec (docs : Nat → Bitmap) (l : List Nat) (hn : l.Nodup) (f : Nat) (hf : f ∉ l) :
    ∃ s, addScore docs (coverLoop docs l) l.length (objective docs l.toFinset) f = .ok s ∧
      IsScore docs l.toFinset f s := by
  obtain ⟨h1, h2, -⟩ := coverLoop_spec docs l hn
  have hG : f ∉ l.toFinset := by simpa using hf
  have hcard : l.toFinset.card = l.length := List.toFinset_card_of_nodup hn
  have hov : (docs f ∩ (coverLoop docs l).union).Nonempty ↔ Overlaps docs f l.toFinset := by
    rw [overlaps_iff, Finset.erase_eq_of_notMem hG, h1]
  by_cases ho : Overlaps docs f l.toFinset
  · have hob : objectiveExpr ((coverLoop docs l).hits + ((docs f).card : Int))
        (((docs f ∪ (coverLoop docs l).union).card : Nat) : Int) ((l.length : Int) + 1)
        = .ok (objective docs (insert f l.toFinset)) := by
      rw [objectiveExpr_ok (by omega) (by rw [h2]; omega)]
      congr 1
      have hc : (((insert f l.toFinset).card : Nat) : Rat) = (l.length : Rat) + 1 := by
        rw [Finset.card_insert_of_notMem hG, hcard]; push_cast; rfl
      have hh : (hits docs (insert f l.toFinset) : Rat) = (hits docs l.toFinset : Rat) + ((docs f).card : Rat) := by
        simp only [hits, Finset.sum_insert hG]; push_cast; ring
      have hcov : covered docs (insert f l.toFinset) = docs f ∪ covered docs l.toFinset := by
        simp [covered, Finset.biUnion_insert]
      simp only [objective, hc, hh, hcov, h1, h2]
      push_cast
      ring_nf
    refine ⟨objective docs (insert f l.toFinset) - objective docs l.toFinset, ?_, ?_⟩
    · simp only [addScore]
      rw [if_pos (hov.2 ho), hob]
      rfl
    · exact ⟨fun h => absurd h hG, fun h => absurd h hG, fun h => absurd h hG, fun _ _ => rfl, fun _ h => absurd ho h⟩
  · refine ⟨-1, ?_, ?_⟩
    · simp only [addScore]
      rw [if_neg (fun h => ho (hov.1 h))]
      rfl
    · exact ⟨fun h => absurd h hG, fun h => absurd h hG, fun h => absurd h hG, fun _ h => absurd h ho, fun _ _ => rfl⟩

theorem mapM_ok_of_forall {α β : Type} {P : α → β → Prop} (f : α → Except Err β) :
    ∀ l : List α, (∀ a ∈ l, ∃ b, f a = .ok b ∧ P a b) →
      ∃ bs, l.mapM f = .ok bs ∧ List.Forall₂ P l bs
  | [], _ => ⟨[], rfl, .nil⟩
  | a :: l, h => by
    obtain ⟨b, hb, hp⟩ := h a (by simp)
    obtain ⟨bs, hbs, hps⟩ := mapM_ok_of_forall f l (fun x hx => h x (by simp [hx]))
    refine ⟨b :: bs, ?_, .cons hp hps⟩
    rw [List.mapM_cons, hb, hbs]; rfl

theorem forall₂_zip {α β : Type} {P : α → β → Prop} {l : List α} {m : List β} (h : List.Forall₂ P l m) :
    (∀ x ∈ l.zip m, P x.1 x.2) ∧ (l.zip m).map (·.1) = l := by
  induction h with
  | nil => simp
  | cons hp _ ih =>
    refine ⟨?_, by simp [ih.2]⟩
    intro x hx
    rw [List.zip_cons_cons, List.mem_cons] at hx
    rcases hx with rfl | hx
    · exact hp
    · exact ih.1 x hx

theorem measure_spec (docs : Nat → Bitmap) (probe : Option Bitmap) (group : List Nat) (hn : group.Nodup)
    (hne : group ≠ []) (adds : Finset Nat) :
    ∃ r, measureContribution docs probe group adds = .ok r ∧
      r.objective = objective (seen docs probe) group.toFinset ∧
      r.scores.map (·.1) = group ++ Bitmap.elems (adds \ group.toFinset) ∧
      ∀ x ∈ r.scores, IsScore (seen docs probe) group.toFinset x.1 x.2 := by
  set D := seen docs probe with hD
  obtain ⟨h1, h2, -⟩ := coverLoop_spec D group hn
  have hpos : 0 < group.length := List.length_pos_of_ne_nil hne
  have hcard : group.toFinset.card = group.length := List.toFinset_card_of_nodup hn
  have hob : objectiveExpr (coverLoop D group).hits ((coverLoop D group).union.card : Nat) (group.length : Int)
      = .ok (objective D group.toFinset) := by
    rw [objectiveExpr_ok (by omega) (by rw [h2]; omega)]
    simp only [objective, h1, h2, hcard]
    push_cast
    rfl
  obtain ⟨rd, hrd, hr⟩ := mapM_ok_of_forall (P := fun f s => IsScore D group.toFinset f s)
    (removeScore D (coverLoop D group) group.length (objective D group.toFinset)) group
    (fun f hf => removeScore_spec D group hn f hf)
  obtain ⟨ad, had, ha⟩ := mapM_ok_of_forall (P := fun f s => IsScore D group.toFinset f s)
    (addScore D (coverLoop D group) group.length (objective D group.toFinset)) (Bitmap.elems (adds \ group.toFinset))
    (fun f hf => addScore_spec D group hn f (by
      have := Bitmap.mem_elems.1 hf
      rw [Finset.mem_sdiff] at this
      simpa using this.2))
  refine ⟨⟨objective D group.toFinset, group, rd, Bitmap.elems (adds \ group.toFinset), ad⟩, ?_, rfl, ?_, ?_⟩
  · rw [measureContribution, if_neg (by omega)]
    simp only [probed_eq_seen, ← hD]
    rw [hob]
    simp only [bind, Except.bind]
    rw [hrd]
    simp only
    rw [had]
    rfl
  · simp only [Contribution.scores, List.map_append, (forall₂_zip hr).2, (forall₂_zip ha).2]
  · intro x hx
    simp only [Contribution.scores, List.mem_append] at hx
    rcases hx with hx | hx
    · exact (forall₂_zip hr).1 x hx
    · exact (forall₂_zip ha).1 x hx

end Hyperreal
