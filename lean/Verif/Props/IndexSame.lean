import Verif.Lemmas.SameIndex
import Verif.Props.Indexing
import Verif.Props.Query

/-!
# What `index` builds does not depend on batches, workers and timing (C74)

`index` has no `order by` on the statement that merges the segments (index.py:451-467), so the ids of new features are
those of the order in which SQLite visits the groups. SQLite groups along the index on `(field, value, first_doc_id)`
(index.py:442-448), so that order depends only on which groups there are; `SameGroups` asks no more than that.
-/

namespace Hyperreal.Props
open Spec DB Atomic

/-- The order in which the groups are merged depends only on which groups there are. -/
def SameGroups (s1 s2 : Schedule) : Prop := ∀ l l', l.Perm l' → s1.groupOrder l = s2.groupOrder l'

/-- The order of SQLite on `(field, value)`. -/
def keyLe (a b : String × Val) : Prop := (a.1 ≠ b.1 ∧ Val.le (.text a.1) (.text b.1) = true) ∨ (a.1 = b.1 ∧ Val.le a.2 b.2 = true)

instance : DecidableRel keyLe := fun a b => inferInstanceAs (Decidable ((a.1 ≠ b.1 ∧ Val.le (.text a.1) (.text b.1) = true) ∨ (a.1 = b.1 ∧ Val.le a.2 b.2 = true)))

/-- Merging along the index on `(field, value)` meets `SameGroups`. -/
theorem sorted_groups_same {s1 s2 : Schedule} (h1 : Fair s1) (h2 : Fair s2) (o1 : ∀ l, (s1.groupOrder l).Pairwise keyLe)
    (o2 : ∀ l, (s2.groupOrder l).Pairwise keyLe) : SameGroups s1 s2 := by
  intro l l' hp
  haveI : Std.Antisymm keyLe := ⟨by
    rintro ⟨a, b⟩ ⟨c, d⟩ (⟨h, h'⟩ | ⟨h, h'⟩) (⟨k, k'⟩ | ⟨k, k'⟩)
    · exact absurd (Val.text.inj (val_le_antisymm h' k')) h
    · exact absurd k.symm h
    · exact absurd h.symm k
    · simp only at h h' k'; rw [h, val_le_antisymm h' k']⟩
  exact List.Perm.eq_of_pairwise' (o1 l) (o2 l') (((h1.groups l).trans hp).trans (h2.groups l').symm)

/-- Two successful calls of `index` on the same database and corpus, with whatever batch sizes, numbers of workers,
completion orders, row orders and connections, leave the same documents, features (ids, counts and documents),
feature-cluster rows, clusters and field summaries. -/
theorem index_same {corpus : Corpus} {content : Val → Features} {cfg1 cfg2 : IndexCfg} {s1 s2 : Schedule}
    {c1 c2 : Conn DB} {db : DB} (hc1 : Idle c1 db) (hc2 : Idle c2 db) (hp : Pending db) (hs : Serves corpus content)
    (hf1 : Fair s1) (hf2 : Fair s2) (hg : SameGroups s1 s2) (hpos : cfg1.positions = cfg2.positions)
    (h1 : (indexCall corpus cfg1 s1 c1).2 = .ok ()) (h2 : (indexCall corpus cfg2 s2 c2).2 = .ok ()) :
    ∃ new1 new2, Idle (indexCall corpus cfg1 s1 c1).1 new1 ∧ Idle (indexCall corpus cfg2 s2 c2).1 new2 ∧
      new1.docKeys = new2.docKeys ∧ new1.features = new2.features ∧ new1.fc = new2.fc ∧ new1.clusters = new2.clusters ∧
      new1.changed = new2.changed ∧ new1.fieldSummary = new2.fieldSummary ∧
      (cfg1.positions = true → IsPositionIndexOf corpus content new1 ∧ IsPositionIndexOf corpus content new2) := by
  have hend1 := indexCall_end corpus cfg1 s1 c1 db hc1
  have hend2 := indexCall_end corpus cfg2 s2 c2 db hc2
  have p1 := fun hq => index_positions (cfg := cfg1) hc1 hp hs hf1 hq h1
  have p2 := fun hq => index_positions (cfg := cfg2) hc2 hp hs hf2 hq h2
  generalize indexCall corpus cfg1 s1 c1 = r1 at h1 hend1 p1 ⊢
  generalize indexCall corpus cfg2 s2 c2 = r2 at h2 hend2 p2 ⊢
  cases hend1 with
  | old c' e _ _ _ _ => cases h1
  | mid c' e w _ _ _ _ _ => cases h1
  | new c1' w1 f1 hw1 hu1 hi1 _ =>
    cases hend2 with
    | old c' e _ _ _ _ => cases h2
    | mid c' e w _ _ _ _ _ => cases h2
    | new c2' w2 f2 hw2 hu2 hi2 _ =>
      obtain ⟨ix1, -, -, rfl⟩ := phase1_ok hs hf1 hp hw1
      obtain ⟨ix2, -, -, rfl⟩ := phase1_ok hs hf2 hp hw2
      have e := reindexed_same (s1 := s1) (s2 := s2) hs ix1 ix2 hf1 hf2 hg hp.toWellformed hpos
      have u1 := updateChanged_withoutPositions hu1
      have u2 := updateChanged_withoutPositions hu2
      rw [e, u2] at u1
      have e' : f2.withoutPositions = f1.withoutPositions := (Prod.mk.inj u1).1
      refine ⟨f1, f2, hi1, hi2, (congrArg DB.docKeys e').symm, (congrArg DB.features e').symm, (congrArg DB.fc e').symm,
        (congrArg DB.clusters e').symm, (congrArg DB.changed e').symm, (congrArg DB.fieldSummary e').symm, ?_⟩
      intro hq
      obtain ⟨n1, a1, b1⟩ := p1 hq
      obtain ⟨n2, a2, b2⟩ := p2 (hpos ▸ hq)
      have k1 : n1 = f1 := a1.1.symm.trans hi1.1
      have k2 : n2 = f2 := a2.1.symm.trans hi2.1
      subst k1 k2
      exact ⟨b1, b2⟩

/-- If the call succeeds with one batch size, number of workers and timing, then it succeeds with any other, unless an
exception strikes it from outside. -/
theorem index_same_succeeds {corpus : Corpus} {content : Val → Features} {cfg1 cfg2 : IndexCfg} {s1 s2 : Schedule}
    {c1 c2 : Conn DB} {db : DB} (hc1 : Idle c1 db) (hc2 : Idle c2 db) (hp : Pending db) (hs : Serves corpus content)
    (hf1 : Fair s1) (hf2 : Fair s2) (hpos : cfg1.positions = cfg2.positions)
    (h1 : (indexCall corpus cfg1 s1 c1).2 = .ok ()) (hno : ∀ i, s2.fault i = none) :
    (indexCall corpus cfg2 s2 c2).2 = .ok () := by
  obtain ⟨hi, hne, hch, -⟩ := index_success hc1 hp hs hf1 h1
  exact index_succeeds hc2 ⟨hp.toWellformed, fun k hk => hp.summaries k hk (by rw [hch]; simp), hch⟩ hs (hpos ▸ hi) hf2 hne hno

/-- Batches of two with one worker, first come first served. -/
def slowSchedule : Schedule :=
  { demoSchedule with groupOrder := fun l => l.insertionSort keyLe }

/-- The oldest and the newest futures finish together; rows in another order. -/
def hastySchedule : Schedule :=
  { pick := fun fs => (fs, []), segOrder := id, posOrder := List.reverse, groupOrder := fun l => l.insertionSort keyLe }

theorem slow_fair : Fair slowSchedule := { demo_fair with groups := fun l => List.perm_insertionSort _ l }

theorem hasty_fair : Fair hastySchedule where
  pick fs := by simp [hastySchedule]
  segs _ := .refl _
  pos l := List.reverse_perm l
  groups l := List.perm_insertionSort _ l

theorem keyLe_total (a b : String × Val) : keyLe a b ∨ keyLe b a := by
  by_cases h : a.1 = b.1
  · rcases Val.le_total a.2 b.2 with k | k
    · exact .inl (.inr ⟨h, k⟩)
    · exact .inr (.inr ⟨h.symm, k⟩)
  · rcases Val.le_total (.text a.1) (.text b.1) with k | k
    · exact .inl (.inl ⟨h, k⟩)
    · exact .inr (.inl ⟨fun e => h e.symm, k⟩)

theorem keyLe_trans {a b c : String × Val} (h : keyLe a b) (k : keyLe b c) : keyLe a c := by
  rcases h with ⟨h, h'⟩ | ⟨h, h'⟩ <;> rcases k with ⟨k, k'⟩ | ⟨k, k'⟩
  · by_cases e : a.1 = c.1
    · rw [← e] at k'
      exact absurd (Val.text.inj (val_le_antisymm h' k')) h
    · exact .inl ⟨e, Val.le_trans h' k'⟩
  · exact .inl ⟨k ▸ h, k ▸ h'⟩
  · exact .inl ⟨h ▸ k, h ▸ k'⟩
  · exact .inr ⟨h.trans k, Val.le_trans h' k'⟩

theorem slow_hasty_same : SameGroups slowSchedule hastySchedule := by
  haveI : Std.Total keyLe := ⟨keyLe_total⟩
  haveI : IsTrans (String × Val) keyLe := ⟨fun _ _ _ => keyLe_trans⟩
  exact sorted_groups_same slow_fair hasty_fair (fun l => List.pairwise_insertionSort _ l)
    (fun l => List.pairwise_insertionSort _ l)

/-- Batches of two against batches of one with five workers: the same clusters and features, other partitions. -/
example :
    let a := (indexCall demoCorpus demoCfg slowSchedule (Conn.fresh demoModel)).1.committed
    let b := (indexCall demoCorpus { size := 1, workers := 5, positions := true } hastySchedule (Conn.fresh demoModel)).1.committed
    a.features = b.features ∧ a.clusters = b.clusters ∧ a.clusters ≠ [] ∧ a.posDocMap ≠ b.posDocMap := by
  obtain ⟨n1, n2, h1, h2, -, h3, -, h4, -⟩ := index_same (corpus := demoCorpus) (content := demoContent) (cfg1 := demoCfg)
    (cfg2 := { size := 1, workers := 5, positions := true }) (c1 := Conn.fresh demoModel) (c2 := Conn.fresh demoModel)
    ⟨rfl, rfl, rfl, rfl, rfl, rfl⟩ ⟨rfl, rfl, rfl, rfl, rfl, rfl⟩ (Settled.toPending demoModel_settled) demo_serves slow_fair
    hasty_fair slow_hasty_same rfl (by decide +kernel) (by decide +kernel)
  obtain rfl := h1.1
  obtain rfl := h2.1
  exact ⟨h3, h4, by decide +kernel, by decide +kernel⟩

end Hyperreal.Props
