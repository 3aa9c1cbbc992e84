import Verif.Model.Trends
import Verif.Spec.Trends
import Verif.Props.Query
import Verif.Props.Hansard
import Verif.Props.Fields

/-! # C93: trends over the values of a field -/

namespace Hyperreal.Props
open Spec Atomic Trends

/-! ## Sums -/

theorem sum_cards_eq {ι : Type} [DecidableEq ι] (l : List ι) (hl : l.Nodup) (f : ι → Finset Nat)
    (hd : ∀ a ∈ l, ∀ b ∈ l, a ≠ b → Disjoint (f a) (f b)) : (l.map (fun a => (f a).card)).sum = (l.toFinset.biUnion f).card := by
  rw [Finset.card_biUnion, List.sum_toFinset _ hl]
  intro a ha b hb hab
  exact hd a (List.mem_toFinset.1 ha) b (List.mem_toFinset.1 hb) hab

/-- Counting any documents by a field of which each of them has exactly one value counts each of them once. -/
theorem counts_add_up (db : DB) (field : String) (values : List Val) (hnd : values.Nodup)
    (hv : ∀ v, v ∈ values ↔ (db.docsOfKey field v).Nonempty) (q : Bitmap)
    (hone : ∀ d ∈ q, ∃ v, d ∈ db.docsOfKey field v ∧ ∀ w, d ∈ db.docsOfKey field w → w = v) :
    (values.map (fun v => (q ∩ db.docsOfKey field v).card)).sum = q.card := by
  have := sum_cards_eq values hnd (fun v => (q ∩ db.docsOfKey field v : Finset Nat)) (by
    intro a _ b _ hab
    rw [Finset.disjoint_left]
    intro d hda hdb
    rw [Finset.mem_inter] at hda hdb
    obtain ⟨v, -, hw⟩ := hone d hda.1
    exact hab ((hw a hda.2).trans (hw b hdb.2).symm))
  refine Eq.trans this ?_
  congr 1
  ext d
  rw [Finset.mem_biUnion]
  constructor
  · rintro ⟨v, -, h⟩; exact (Finset.mem_inter.1 h).1
  · intro h
    obtain ⟨v, h1, -⟩ := hone d h
    exact ⟨v, List.mem_toFinset.2 ((hv v).2 ⟨d, h1⟩), Finset.mem_inter.2 ⟨h, h1⟩⟩

/-- **C93.** In an index of a corpus of which every document has exactly one value in the field, the totals of the field add up to the
number of documents, and the counts of a query to the number of its documents. -/
theorem trend_adds_up {corpus : Corpus} {content : Val → Features} {db : DB} (hw : Wellformed db) (hI : IsIndexOf corpus content db)
    (field : String)
    (hone : ∀ k ∈ corpus.keys, ∃ v, ∀ w, (∃ vs, (field, vs) ∈ content k ∧ some w ∈ vs.items) ↔ w = v)
    (queries : Dict String Bitmap) (hq : (Dict.keys queries).Nodup) :
    ∃ values totals inters, intersectQueries db queries field = (values, totals, inters) ∧
      totals.length = values.length ∧ totals.sum = corpus.keys.length ∧
      ∀ n q, Dict.get? queries n = some q → (∀ d ∈ q, d < corpus.keys.length) →
        ((Dict.get? inters n).getD []).length = values.length ∧ ((Dict.get? inters n).getD []).sum = q.card := by
  obtain ⟨values, totals, inters, h1, h2, h3, h4, h5⟩ := intersections_exact db hw queries hq field
  have hnd : values.Nodup := h2.imp (fun h => h.2)
  have hdoc : ∀ d, d < corpus.keys.length → ∃ v, d ∈ db.docsOfKey field v ∧ ∀ w, d ∈ db.docsOfKey field w → w = v := by
    intro d hd
    obtain ⟨v, hv⟩ := hone _ (List.getElem_mem hd)
    have hk := List.getElem?_eq_getElem hd
    refine ⟨v, (hI.lookup field v d).2 ?_, ?_⟩
    · obtain ⟨vs, h⟩ := (hv v).2 rfl
      exact ⟨_, vs, hk, h⟩
    · intro w h
      obtain ⟨k, vs, hk', h⟩ := (hI.lookup field w d).1 h
      rw [hk] at hk'
      cases hk'
      exact (hv w).1 ⟨vs, h⟩
  have hsub : ∀ v d, d ∈ db.docsOfKey field v → d < corpus.keys.length := by
    intro v d h
    obtain ⟨k, vs, hk, -⟩ := (hI.lookup field v d).1 h
    exact (List.getElem?_eq_some_iff.1 hk).1
  refine ⟨values, totals, inters, h1, by rw [h4, List.length_map], ?_, ?_⟩
  · have := counts_add_up db field values hnd h3 (Finset.range corpus.keys.length) (fun d hd => hdoc d (Finset.mem_range.1 hd))
    rw [Finset.card_range] at this
    rw [h4, ← this]
    congr 1
    apply List.map_congr_left
    intro v _
    congr 1
    ext d
    rw [Finset.mem_inter]
    exact ⟨fun h => ⟨Finset.mem_range.2 (hsub v d h), h⟩, fun h => h.2⟩
  · intro n q hn hq'
    rw [h5 n q hn]
    exact ⟨by rw [List.length_map], counts_add_up db field values hnd h3 q (fun d hd => hdoc d (hq' d hd))⟩

/-! ## Shares -/

theorem percentage_ok (part all : Bitmap) (h : all.Nonempty) :
    ∃ x, pyDiv (100 * (((part ∩ all).card : Nat) : Int)) ((all.card : Nat) : Int) = .ok x ∧ Percentage part all x ∧ 0 ≤ x ∧ x ≤ 100 := by
  have h0 : 0 < Finset.card all := Finset.card_pos.2 h
  have h1 : Finset.card (part ∩ all) ≤ Finset.card all := Finset.card_le_card Finset.inter_subset_right
  have hp : (0 : Rat) < (Finset.card all : Rat) := by exact_mod_cast h0
  have hle : ((part ∩ all).card : Rat) ≤ (all.card : Rat) := by exact_mod_cast h1
  refine ⟨_, if_neg (by exact_mod_cast Nat.pos_iff_ne_zero.1 h0), ?_, ?_, ?_⟩
  · unfold Percentage
    push_cast
    exact div_mul_cancel₀ _ (ne_of_gt hp)
  · push_cast
    exact div_nonneg (mul_nonneg (by norm_num) (Nat.cast_nonneg _)) hp.le
  · push_cast
    rw [div_le_iff₀ hp]
    linarith

/-- **C93.** The shares of a query in the values of a field can always be computed: none of the divisions is by zero, every share is
between 0 and 100, and it is the percentage of the documents with the value that are in the query. -/
theorem shares_exact (db : DB) (hw : Wellformed db) (queries : Dict String Bitmap) (hq : (Dict.keys queries).Nodup) (field : String)
    (n : String) (q : Bitmap) (hn : Dict.get? queries n = some q) :
    ∃ values totals inters ys, intersectQueries db queries field = (values, totals, inters) ∧
      shares ((Dict.get? inters n).getD []) totals = .ok ys ∧
      List.Forall₂ (fun v y => Percentage q (db.docsOfKey field v) y ∧ 0 ≤ y ∧ y ≤ 100) values ys := by
  obtain ⟨values, totals, inters, h1, -, h3, h4, h5⟩ := intersections_exact db hw queries hq field
  have hz : ((Dict.get? inters n).getD []).zip totals =
      values.map (fun v => ((q ∩ db.docsOfKey field v).card, (db.docsOfKey field v).card)) := by
    rw [h5 n q hn, h4, List.zip_map']
  obtain ⟨ys, e, hall⟩ := mapM_ok_of_forall (P := fun (x : Val) y => Percentage q (db.docsOfKey field x) y ∧ 0 ≤ y ∧ y ≤ 100)
    (fun v => pyDiv (100 * (((q ∩ db.docsOfKey field v).card : Nat) : Int)) (((db.docsOfKey field v).card : Nat) : Int)) values
    (fun v hv => percentage_ok q _ ((h3 v).1 hv))
  refine ⟨values, totals, inters, ys, h1, ?_, hall⟩
  unfold shares
  rw [hz, List.mapM_map]
  exact e

/-- **C93.** The same in the documents of a reference query: a value without any of them has share 0 instead of an error. -/
theorem shares_of_reference (db : DB) (hw : Wellformed db) (queries : Dict String Bitmap) (hq : (Dict.keys queries).Nodup) (field : String)
    (n ref : String) (q r : Bitmap) (hn : Dict.get? queries n = some q) (hr : Dict.get? queries ref = some r) (hsub : q ⊆ r) :
    ∃ values totals inters ys, intersectQueries db queries field = (values, totals, inters) ∧
      sharesOr ((Dict.get? inters n).getD []) ((Dict.get? inters ref).getD []) = .ok ys ∧
      List.Forall₂ (fun v y => Percentage q (r ∩ db.docsOfKey field v) y ∧ 0 ≤ y ∧ y ≤ 100) values ys := by
  obtain ⟨values, totals, inters, h1, -, h3, h4, h5⟩ := intersections_exact db hw queries hq field
  have hz : ((Dict.get? inters n).getD []).zip ((Dict.get? inters ref).getD []) =
      values.map (fun v => ((q ∩ db.docsOfKey field v).card, (r ∩ db.docsOfKey field v).card)) := by
    rw [h5 n q hn, h5 ref r hr, List.zip_map']
  have hqr : ∀ v, q ∩ db.docsOfKey field v = q ∩ (r ∩ db.docsOfKey field v) := by
    intro v
    rw [← Finset.inter_assoc, Finset.inter_eq_left.2 hsub]
  obtain ⟨ys, e, hall⟩ := mapM_ok_of_forall (P := fun (x : Val) y => Percentage q (r ∩ db.docsOfKey field x) y ∧ 0 ≤ y ∧ y ≤ 100)
    (fun v => pyDiv (100 * (((q ∩ db.docsOfKey field v).card : Nat) : Int))
      (if (r ∩ db.docsOfKey field v).card = 0 then 1 else (((r ∩ db.docsOfKey field v).card : Nat) : Int))) values
    (by
      intro v hv
      by_cases h0 : (r ∩ db.docsOfKey field v).card = 0
      · have hrv : r ∩ db.docsOfKey field v = ∅ := Finset.card_eq_zero.1 h0
        have hqv : q ∩ db.docsOfKey field v = ∅ := by rw [hqr, hrv, Finset.inter_empty]
        refine ⟨0, ?_, ?_, le_refl _, by norm_num⟩
        · simp only [if_pos h0, hqv, Finset.card_empty]
          unfold pyDiv
          simp
        · unfold Percentage; rw [hrv]; simp
      · obtain ⟨x, hx, h⟩ := percentage_ok q (r ∩ db.docsOfKey field v) (Finset.card_pos.1 (Nat.pos_of_ne_zero h0))
        refine ⟨x, ?_, h⟩
        simp only [if_neg h0]
        rw [hqr v]
        exact hx)
  refine ⟨values, totals, inters, ys, h1, ?_, hall⟩
  unfold sharesOr
  rw [hz, List.mapM_map]
  exact e

/-! ## One line per cluster -/

theorem keys_addIntersections (queries : Dict String Bitmap) (docs : Bitmap) :
    ∀ acc : Dict String (List Nat), (∀ k ∈ Dict.keys queries, k ∈ Dict.keys acc) →
      Dict.keys (addIntersections queries docs acc) = Dict.keys acc := by
  unfold addIntersections
  induction queries with
  | nil => intro acc _; rfl
  | cons q l ih =>
    intro acc h
    rw [List.foldl_cons]
    have e : Dict.keys (Dict.set acc q.1 ((acc.get? q.1).getD [] ++ [(q.2 ∩ docs).card])) = Dict.keys acc := by
      rw [Dict.keys_set, if_pos (h q.1 (by simp [Dict.keys]))]
    rw [ih _ (by rw [e]; intro k hk; exact h k (by simp only [Dict.keys, List.map_cons, List.mem_cons]; exact .inr hk)), e]

theorem keys_addIntersections_first (queries : Dict String Bitmap) (docs : Bitmap) :
    ∀ acc : Dict String (List Nat), (Dict.keys acc ++ Dict.keys queries).Nodup →
      Dict.keys (addIntersections queries docs acc) = Dict.keys acc ++ Dict.keys queries := by
  unfold addIntersections
  induction queries with
  | nil => intro acc _; simp [Dict.keys]
  | cons q l ih =>
    intro acc h
    rw [List.foldl_cons]
    have hk : Dict.keys (q :: l) = q.1 :: Dict.keys l := rfl
    rw [hk] at h ⊢
    have hq : q.1 ∉ Dict.keys acc := by
      intro hm
      exact (List.nodup_append.1 h).2.2 _ hm _ (List.mem_cons_self ..) rfl
    have e : Dict.keys (Dict.set acc q.1 ((acc.get? q.1).getD [] ++ [(q.2 ∩ docs).card])) = Dict.keys acc ++ [q.1] := by
      rw [Dict.keys_set, if_neg hq]
    rw [ih _ (by rw [e, List.append_assoc]; exact h), e, List.append_assoc]
    rfl

/-- The counts come in the order of the queries. -/
theorem inters_keys (db : DB) (queries : Dict String Bitmap) (hq : (Dict.keys queries).Nodup) (field : String)
    (hne : (intersectQueries db queries field).1 ≠ []) :
    Dict.keys (intersectQueries db queries field).2.2 = Dict.keys queries := by
  unfold intersectQueries at hne ⊢
  dsimp only at hne ⊢
  cases hr : iterFieldDocs db field with
  | nil => rw [hr] at hne; exact absurd rfl hne
  | cons r rows =>
    rw [List.foldl_cons]
    have h0 : Dict.keys (addIntersections queries r.2.2 []) = Dict.keys queries := by
      rw [keys_addIntersections_first _ _ _ (by simpa [Dict.keys] using hq)]
      rfl
    generalize addIntersections queries r.2.2 [] = acc at h0
    clear hr hne
    induction rows generalizing acc with
    | nil => exact h0
    | cons x rows ih =>
      rw [List.foldl_cons]
      exact ih _ ((keys_addIntersections queries _ acc (by rw [h0]; exact fun _ h => h)).trans h0)

theorem clusterQueries_distinct (db : DB) (docs : Int → Bitmap) :
    ∀ (listed : List (Int × List String)) (acc : Dict String Bitmap), (∀ x ∈ listed, clusterDocs db x.1 = .ok (docs x.1)) →
      (Dict.keys acc ++ listed.map (fun x => label x.2)).Nodup →
      listed.foldlM (fun d x => do
        let docs ← clusterDocs db x.1
        return Dict.set d (label x.2) docs) acc = .ok (acc ++ listed.map (fun x => (label x.2, docs x.1))) := by
  intro listed
  induction listed with
  | nil => intro acc _ _; simp; rfl
  | cons x l ih =>
    intro acc h hn
    rw [List.map_cons] at hn
    have hx : label x.2 ∉ Dict.keys acc := by
      intro hm
      exact (List.nodup_append.1 hn).2.2 _ hm _ (List.mem_cons_self ..) rfl
    have hset : Dict.set acc (label x.2) (docs x.1) = acc ++ [(label x.2, docs x.1)] := by
      unfold Dict.set
      rw [if_neg]
      intro ha
      exact hx ((Dict.any_iff _ _).1 ha)
    rw [List.foldlM_cons, h x (by simp)]
    show List.foldlM _ (Dict.set acc (label x.2) (docs x.1)) l = _
    rw [hset, ih _ (fun y hy => h y (by simp [hy])) (by
      simp only [Dict.keys, List.map_append, List.map_cons, List.map_nil, List.append_assoc, List.cons_append, List.nil_append]
      exact hn), List.append_assoc]
    rfl

theorem cluster_trends_of_labels (db : DB) (hw : Wellformed db) (listed : List (Int × List String)) (docs : Int → Bitmap)
    (hdocs : ∀ x ∈ listed, clusterDocs db x.1 = .ok (docs x.1)) (hlabels : (listed.map (fun x => label x.2)).Nodup) (field : String)
    (hsome : ∃ v, (db.docsOfKey field v).Nonempty) :
    ∃ (values : List Val) (lines : List (String × List (Val × Rat))), clusterTrends db listed field = .ok lines ∧
      values.Pairwise (fun a b => Val.le a b = true ∧ a ≠ b) ∧ (∀ v, v ∈ values ↔ (db.docsOfKey field v).Nonempty) ∧
      List.Forall₂ (fun x line => line.1 = label x.2 ∧
        List.Forall₂ (fun v point => point.1 = v ∧ Percentage (docs x.1) (db.docsOfKey field v) point.2 ∧ 0 ≤ point.2 ∧ point.2 ≤ 100)
          (values.drop 1).dropLast line.2) listed lines := by
  have hq : clusterQueries db listed = .ok (listed.map (fun x => (label x.2, docs x.1))) :=
    clusterQueries_distinct db docs listed [] hdocs (by simpa [Dict.keys] using hlabels)
  have hk : Dict.keys (listed.map (fun x => (label x.2, docs x.1))) = listed.map (fun x => label x.2) := by
    simp [Dict.keys, Function.comp_def]
  obtain ⟨values, totals, inters, h1, h2, h3, -, h5⟩ := intersections_exact db hw (listed.map (fun x => (label x.2, docs x.1)))
    (by rw [hk]; exact hlabels) field
  have hvne : values ≠ [] := by
    obtain ⟨v, hv⟩ := hsome
    exact List.ne_nil_of_mem ((h3 v).2 hv)
  have hik : Dict.keys inters = listed.map (fun x => label x.2) := by
    have := inters_keys db _ (by rw [hk]; exact hlabels) field (by rw [h1]; exact hvne)
    rw [h1, hk] at this
    exact this
  have hget : ∀ x ∈ listed, Dict.get? (listed.map (fun x => (label x.2, docs x.1)) : Dict String Bitmap) (label x.2) = some (docs x.1) := by
    intro x hx
    exact Dict.get?_of_mem (by rw [hk]; exact hlabels) (List.mem_map.2 ⟨x, hx, rfl⟩)
  have hinters : inters = listed.map (fun x => (label x.2, (Dict.get? inters (label x.2)).getD [])) := by
    have hnd : (Dict.keys inters).Nodup := by rw [hik]; exact hlabels
    have hself : inters = (Dict.keys inters).map (fun k => (k, (Dict.get? inters k).getD [])) := by
      have : (Dict.keys inters).map (fun k => (k, (Dict.get? inters k).getD [])) = inters.map (fun e => e) := by
        unfold Dict.keys
        rw [List.map_map]
        apply List.map_congr_left
        intro e he
        show (e.1, (Dict.get? inters e.1).getD []) = e
        rw [Dict.get?_of_mem hnd he]
        rfl
      rw [this, List.map_id']
    rw [hik, List.map_map] at hself
    exact hself
  obtain ⟨ls, e, hall⟩ := mapM_ok_of_forall (P := fun (x : Int × List String) (line : String × List (Val × Rat)) => line.1 = label x.2 ∧
        List.Forall₂ (fun v point => point.1 = v ∧ Percentage (docs x.1) (db.docsOfKey field v) point.2 ∧ 0 ≤ point.2 ∧ point.2 ≤ 100)
          (values.drop 1).dropLast line.2)
    (fun x => (do
      let ys ← shares ((Dict.get? inters (label x.2)).getD []) totals
      return (label x.2, points values ys) : Except Err (String × List (Val × Rat)))) listed (by
    intro x hx
    obtain ⟨values', totals', inters', ys, g1, g2, g3⟩ := shares_exact db hw _ (by rw [hk]; exact hlabels) field (label x.2) (docs x.1) (hget x hx)
    rw [h1] at g1
    simp only [Prod.mk.injEq] at g1
    obtain ⟨rfl, rfl, rfl⟩ := g1
    refine ⟨_, by rw [g2]; rfl, rfl, ?_⟩
    have hz : List.Forall₂ (fun v (point : Val × Rat) => point.1 = v ∧ Percentage (docs x.1) (db.docsOfKey field v) point.2 ∧ 0 ≤ point.2 ∧
        point.2 ≤ 100) values (values.zip ys) := by
      clear g2 h1 h2 h3 h5 hvne hik hinters
      induction g3 with
      | nil => exact .nil
      | cons h _ ih => exact .cons ⟨rfl, h⟩ ih
    have hdrop : ∀ {l : List Val} {r : List (Val × Rat)} {R : Val → Val × Rat → Prop}, List.Forall₂ R l r →
        List.Forall₂ R (l.drop 1).dropLast (r.drop 1).dropLast := by
      intro l r R h
      rw [List.dropLast_eq_take, List.dropLast_eq_take]
      have hl := (List.forall₂_drop 1 h)
      rw [hl.length_eq]
      exact List.forall₂_take _ hl
    exact hdrop hz)
  refine ⟨values, ls, ?_, h2, h3, hall⟩
  unfold clusterTrends
  rw [hq]
  show lines _ _ _ = _
  rw [h1]
  unfold lines
  dsimp only
  rw [hinters, List.mapM_map]
  exact e

/-- **C93.** The plot of clusters whose labels (their first values) are distinct has one line for each of them, in the order they are
listed; the line has a point for each value of the field except the least and the greatest, in ascending order, with the percentage
of the documents with the value that are in the cluster.  Missing: clusters with the same label (`same_label_loses_cluster`). -/
theorem cluster_trends_partial (db : DB) (hw : Wellformed db) (listed : List (Int × List String)) (docs : Int → Bitmap)
    (hdocs : ∀ x ∈ listed, clusterDocs db x.1 = .ok (docs x.1)) (hlabels : (listed.map (fun x => " ".intercalate (x.2 ++ ["..."]))).Nodup) (field : String)
    (hsome : ∃ v, (db.docsOfKey field v).Nonempty) :
    ∃ (values : List Val) (lines : List (String × List (Val × Rat))), clusterTrends db listed field = .ok lines ∧
      values.Pairwise (fun a b => Val.le a b = true ∧ a ≠ b) ∧ (∀ v, v ∈ values ↔ (db.docsOfKey field v).Nonempty) ∧
      List.Forall₂ (fun x line => line.1 = " ".intercalate (x.2 ++ ["..."]) ∧
        List.Forall₂ (fun v point => point.1 = v ∧ Percentage (docs x.1) (db.docsOfKey field v) point.2 ∧ 0 ≤ point.2 ∧ point.2 ≤ 100)
          (values.drop 1).dropLast line.2) listed lines :=
  cluster_trends_of_labels db hw listed docs hdocs hlabels field hsome

theorem clusterQueries_keys (db : DB) :
    ∀ (listed : List (Int × List String)) (acc r : Dict String Bitmap), listed.foldlM (fun d x => do
        let docs ← clusterDocs db x.1
        return Dict.set d (label x.2) docs) acc = .ok r → (Dict.keys acc).Nodup →
      (Dict.keys r).Nodup ∧ ∀ k ∈ Dict.keys r, k ∈ Dict.keys acc ∨ k ∈ listed.map (fun x => label x.2) := by
  intro listed
  induction listed with
  | nil => intro acc r h hn; cases h; exact ⟨hn, fun k hk => .inl hk⟩
  | cons x l ih =>
    intro acc r h hn
    rw [List.foldlM_cons] at h
    cases hd : clusterDocs db x.1 with
    | error e => rw [hd] at h; cases h
    | ok docs =>
      rw [hd] at h
      obtain ⟨h1, h2⟩ := ih (Dict.set acc (label x.2) docs) r h (Dict.nodup_set hn _ _)
      refine ⟨h1, fun k hk => ?_⟩
      rcases h2 k hk with h | h
      · rcases (Dict.mem_keys_set _ _ _ _).1 h with rfl | h
        · exact .inr (by simp)
        · exact .inl h
      · exact .inr (by rw [List.map_cons]; exact List.mem_cons_of_mem _ h)

theorem mapM_length {α β : Type} (f : α → Except Err β) : ∀ (l : List α) (r : List β), l.mapM f = .ok r → r.length = l.length := by
  intro l r h
  exact (Hyperreal.mapM_ok h).length_eq.symm

/-- **C93, refuted** for clusters with the same label: the plot has fewer lines than there are clusters. -/
theorem same_label_loses_cluster (db : DB) (listed : List (Int × List String)) (field : String)
    (hlabels : ¬ (listed.map (fun x => " ".intercalate (x.2 ++ ["..."]))).Nodup) (hsome : (intersectQueries db [] field).1 ≠ [])
    (lines : List (String × List (Val × Rat))) (h : clusterTrends db listed field = .ok lines) : lines.length < listed.length := by
  change ¬ (listed.map (fun x => label x.2)).Nodup at hlabels
  unfold clusterTrends at h
  cases hq : clusterQueries db listed with
  | error e => rw [hq] at h; cases h
  | ok queries =>
    rw [hq] at h
    have h' : Trends.lines (intersectQueries db queries field).1 (intersectQueries db queries field).2.1
        (intersectQueries db queries field).2.2 = .ok lines := h
    obtain ⟨hn, hsub⟩ := clusterQueries_keys db listed [] queries hq (by simp [Dict.keys])
    have hlen := mapM_length _ _ _ h'
    have hk := inters_keys db queries hn field hsome
    have e1 : lines.length = (Dict.keys queries).length := by
      rw [hlen, ← hk]; simp [Dict.keys]
    have hsub' : Dict.keys queries ⊆ (listed.map (fun x => label x.2)).dedup := by
      intro k hk
      rcases hsub k hk with h | h
      · simp [Dict.keys] at h
      · exact List.mem_dedup.2 h
    have h1 := (hn.subperm hsub').length_le
    have h2 : (listed.map (fun x => label x.2)).dedup.length < (listed.map (fun x => label x.2)).length := by
      have hs := List.dedup_sublist (listed.map (fun x => label x.2))
      rcases Nat.lt_or_ge (listed.map (fun x => label x.2)).dedup.length (listed.map (fun x => label x.2)).length with h | h
      · exact h
      · exact absurd (hs.eq_of_length_le h ▸ List.nodup_dedup _) hlabels
    rw [List.length_map] at h2
    omega

/-! ## Posts and pages by month -/

/-- **C93.** The posts of a StackExchange corpus counted by year, month or day of creation: the totals add up to the number of posts,
the counts of a query to the number of its documents. -/
theorem posts_by_date (t : SX.TextOps) (h0 : t.tokens "" = []) (scan : List SX.Post → List SX.Post)
    (hscan : ∀ l, (scan l).Perm l) (sx : SX.Db) (hw : SxWellformed sx)
    (hu : ∀ u ∈ sx.users, ∀ v ∈ sx.users, u.key ≠ none → u.key = v.key → u = v) (hr : SxReadable t sx) (hne : sx.posts ≠ [])
    (cfg : IndexCfg) (s : Schedule) (hf : Fair s) (hno : ∀ i, s.fault i = none) (f : Migrate.File) (hu' : Usable f)
    (field : String) (hfield : field ∈ ["created_year", "created_month", "created_day"])
    (queries : Dict String Bitmap) (hq : (Dict.keys queries).Nodup) :
    let indexed := Pipeline.onIndex f (indexCall (SX.corpus t scan sx) cfg s)
    indexed.2 = .ok () ∧
    ∃ values totals inters, intersectQueries indexed.1.data queries field = (values, totals, inters) ∧
      totals.length = values.length ∧ totals.sum = sx.posts.length ∧
      ∀ n q, Dict.get? queries n = some q → (∀ d ∈ q, d < sx.posts.length) →
        ((Dict.get? inters n).getD []).length = values.length ∧ ((Dict.get? inters n).getD []).sum = q.card := by
  intro indexed
  obtain ⟨hs, hi, hk⟩ := sx_serves t scan hscan sx hw hr
  have hkeys : (SX.corpus t scan sx).keys ≠ [] := by
    obtain ⟨p, l, e⟩ := List.exists_cons_of_ne_nil hne
    exact List.ne_nil_of_mem ((hk _).2 ⟨p, by rw [e]; simp, rfl⟩)
  obtain ⟨hok, hwf, hI, -⟩ := any_index hs cfg (hi _) hkeys s hf hno f hu'
  have hlen : (SX.corpus t scan sx).keys.length = sx.posts.length := by
    show ((SX.keys scan sx).map _).length = _
    rw [List.length_map]
    show ((scan sx.posts).map _).length = _
    rw [List.length_map]
    exact (hscan _).length_eq
  have hadd := fun h => trend_adds_up hwf hI field h queries hq
  rw [hlen] at hadd
  refine ⟨hok, hadd ?_⟩
  intro k hkm
  obtain ⟨p, hp, rfl⟩ := (hk k).1 hkm
  obtain ⟨doc, -, hdoc, hg⟩ := sx_content t h0 sx hw hu hr p hp
  obtain ⟨str, d, e1, e2, hv⟩ := hr.dates p hp
  have e1' : doc.created = some str := by rw [hdoc.columns.2.2.1]; exact e1
  obtain ⟨g, n, hgn, rfl⟩ : ∃ g n, (g, n) ∈ [("year", 1), ("month", 2), ("day", 3)] ∧ field = "created_" ++ g := by
    simp only [List.mem_cons, List.not_mem_nil, or_false] at hfield
    rcases hfield with rfl | rfl | rfl
    · exact ⟨"year", 1, by simp, by decide +kernel⟩
    · exact ⟨"month", 2, by simp, by decide +kernel⟩
    · exact ⟨"day", 3, by simp, by decide +kernel⟩
  obtain ⟨r, hr'⟩ : ∃ r, Truncates n d r := by
    simp only [List.mem_cons, Prod.mk.injEq, List.not_mem_nil, or_false] at hgn
    rcases hgn with ⟨-, rfl⟩ | ⟨-, rfl⟩ | ⟨-, rfl⟩
    · exact ⟨⟨d.year, 1, 1, 0, 0, 0, 0, d.offset⟩, rfl, rfl⟩
    · exact ⟨⟨d.year, d.month, 1, 0, 0, 0, 0, d.offset⟩, rfl, rfl⟩
    · exact ⟨⟨d.year, d.month, d.day, 0, 0, 0, 0, d.offset⟩, rfl, rfl⟩
  refine ⟨.text (t.iso r), fun w => (hg _ w).trans ?_⟩
  constructor
  · rintro ⟨x, rfl, hx⟩
    have key : ∀ F x, SxShows t doc F x → F = "created_" ++ g → x = t.iso r := by
      intro F x hx hF
      have hbad : ∀ z ∈ ["UserPosting", "Post", "CodeBlock", "Tag", "UserCommenting", "Comment", "Site", "PostType"], z ≠ "created_" ++ g := by
        simp only [List.mem_cons, Prod.mk.injEq, List.not_mem_nil, or_false] at hgn
        rcases hgn with ⟨rfl, -⟩ | ⟨rfl, -⟩ | ⟨rfl, -⟩ <;> decide +kernel
      cases hx with
      | created s' g' n' d' r' a1 a2 a3 a4 =>
        rw [e1'] at a1
        cases a1
        rw [e2] at a2
        cases a2
        have hgg : g' = g := by
          have := congrArg String.toList hF
          rw [String.toList_append, String.toList_append] at this
          exact String.toList_inj.1 (List.append_cancel_left this)
        subst hgg
        have hnn : n' = n := by
          simp only [List.mem_cons, Prod.mk.injEq, List.not_mem_nil, or_false] at hgn a3
          rcases hgn with ⟨rfl, rfl⟩ | ⟨rfl, rfl⟩ | ⟨rfl, rfl⟩ <;> simp at a3 <;> exact a3
        subst hnn
        rw [truncates_unique a4 hr']
      | _ => exact absurd hF (hbad _ (by simp))
    rw [key _ _ hx rfl]
  · rintro rfl
    exact ⟨_, rfl, .created str g n d r e1' e2 hgn hr'⟩

/-- **C93.** The same for the tweets of a collection, by any of the five precisions of their time, when they can be indexed (C48). -/
theorem tweets_by_date (t : TW.TextOps) (tw : TW.Db) (hr : TwReadable t tw) (hne : tw.direct ≠ []) (cfg : IndexCfg)
    (hmiss : cfg.positions = true → ∀ i ∈ tw.direct, ∀ x ∈ tw.tweets, x.id = i → NothingMissing tw x)
    (s : Schedule) (hf : Fair s) (hno : ∀ i, s.fault i = none) (f : Migrate.File) (hu : Usable f)
    (field : String) (hfield : field ∈ ["created_year", "created_month", "created_day", "created_hour", "created_minute"])
    (queries : Dict String Bitmap) (hq : (Dict.keys queries).Nodup) :
    let indexed := Pipeline.onIndex f (indexCall (TW.corpus t tw) cfg s)
    indexed.2 = .ok () ∧
    ∃ values totals inters, intersectQueries indexed.1.data queries field = (values, totals, inters) ∧
      totals.length = values.length ∧ totals.sum = tw.direct.length ∧
      ∀ n q, Dict.get? queries n = some q → (∀ d ∈ q, d < tw.direct.length) →
        ((Dict.get? inters n).getD []).length = values.length ∧ ((Dict.get? inters n).getD []).sum = q.card := by
  intro indexed
  obtain ⟨hs, hk⟩ := tw_serves t tw hr
  have hlen : (TW.corpus t tw).keys.length = tw.direct.length := by
    show ((tw.direct.insertionSort (· ≤ ·)).map _).length = _
    rw [List.length_map]
    exact (List.perm_insertionSort _ _).length_eq
  have hkeys : (TW.corpus t tw).keys ≠ [] := by
    intro h
    rw [h] at hlen
    exact hne (List.length_eq_zero_iff.1 hlen.symm)
  obtain ⟨hok, hwf, hI, -⟩ := any_index hs cfg ((tw_indexable t tw hr cfg.positions).2 hmiss) hkeys s hf hno f hu
  have hadd := fun h => trend_adds_up hwf hI field h queries hq
  rw [hlen] at hadd
  refine ⟨hok, hadd ?_⟩
  intro k hkm
  obtain ⟨x, hx, -, rfl⟩ := (hk k).1 hkm
  obtain ⟨fs, e0, hg⟩ := tw_shows t tw hr x hx
  obtain ⟨d, e2, hv⟩ := hr.dates x hx
  obtain ⟨g, n, hgn, rfl⟩ : ∃ g n, (g, n) ∈ granularities ∧ field = "created_" ++ g := by
    simp only [List.mem_cons, List.not_mem_nil, or_false] at hfield
    rcases hfield with rfl | rfl | rfl | rfl | rfl
    · exact ⟨"year", 1, by simp [granularities], by decide +kernel⟩
    · exact ⟨"month", 2, by simp [granularities], by decide +kernel⟩
    · exact ⟨"day", 3, by simp [granularities], by decide +kernel⟩
    · exact ⟨"hour", 4, by simp [granularities], by decide +kernel⟩
    · exact ⟨"minute", 5, by simp [granularities], by decide +kernel⟩
  obtain ⟨r, hr'⟩ : ∃ r, Truncates n d r := by
    simp only [granularities, List.mem_cons, Prod.mk.injEq, List.not_mem_nil, or_false] at hgn
    rcases hgn with ⟨-, rfl⟩ | ⟨-, rfl⟩ | ⟨-, rfl⟩ | ⟨-, rfl⟩ | ⟨-, rfl⟩
    · exact ⟨⟨d.year, 1, 1, 0, 0, 0, 0, d.offset⟩, rfl, rfl⟩
    · exact ⟨⟨d.year, d.month, 1, 0, 0, 0, 0, d.offset⟩, rfl, rfl⟩
    · exact ⟨⟨d.year, d.month, d.day, 0, 0, 0, 0, d.offset⟩, rfl, rfl⟩
    · exact ⟨⟨d.year, d.month, d.day, d.hour, 0, 0, 0, d.offset⟩, rfl, rfl⟩
    · exact ⟨⟨d.year, d.month, d.day, d.hour, d.minute, 0, 0, d.offset⟩, rfl, rfl⟩
  have hg' : ∀ w, (∃ vs, ("created_" ++ g, vs) ∈ okOr (TW.indexed t tw (.int x.id)) ∧ some w ∈ vs.items) ↔ TwShows t tw x ("created_" ++ g) w := by
    intro w
    rw [okOr_eq e0]
    exact hg _ w
  refine ⟨.text (t.iso r), fun w => (hg' w).trans ?_⟩
  constructor
  · intro hx
    have key : ∀ F w, TwShows t tw x F w → F = "created_" ++ g → w = .text (t.iso r) := by
      intro F w hx hF
      have hbad : ∀ z ∈ ["text", "#", "@", "conversation_id", "by", "url", "domain", "quoted_tweet_id", "quoted_user", "replied_to_tweet_id",
          "replied_to_user", "collection_label", "retweeted_tweet_id", "retweeted_user"], z ≠ "created_" ++ g := by
        simp only [granularities, List.mem_cons, Prod.mk.injEq, List.not_mem_nil, or_false] at hgn
        rcases hgn with ⟨rfl, -⟩ | ⟨rfl, -⟩ | ⟨rfl, -⟩ | ⟨rfl, -⟩ | ⟨rfl, -⟩ <;> decide +kernel
      cases hx with
      | created g' n' d' r' a2 a3 a4 =>
        rw [e2] at a2
        cases a2
        have hgg : g' = g := by
          have := congrArg String.toList hF
          rw [String.toList_append, String.toList_append] at this
          exact String.toList_inj.1 (List.append_cancel_left this)
        subst hgg
        have hnn : n' = n := by
          simp only [granularities, List.mem_cons, Prod.mk.injEq, List.not_mem_nil, or_false] at hgn a3
          rcases hgn with ⟨rfl, rfl⟩ | ⟨rfl, rfl⟩ | ⟨rfl, rfl⟩ | ⟨rfl, rfl⟩ | ⟨rfl, rfl⟩ <;> simp at a3 <;> exact a3
        subst hnn
        rw [truncates_unique a4 hr']
      | _ => exact absurd hF (hbad _ (by simp))
    exact key _ _ hx rfl
  · rintro rfl
    exact .created g n d r e2 hgn hr'

/-- **C93.** The same for the pages of the Hansard by day, month or year. -/
theorem pages_by_date (t : Hansard.TextOps) (db : Hansard.Db) (hr : HansardReadable t db) (hne : db.pages ≠ []) (cfg : IndexCfg)
    (s : Schedule) (hf : Fair s) (hno : ∀ i, s.fault i = none) (f : Migrate.File) (hu : Usable f)
    (field : String) (hfield : field ∈ ["date", "month", "year"]) (queries : Dict String Bitmap) (hq : (Dict.keys queries).Nodup) :
    ∃ values totals inters,
      intersectQueries (Pipeline.onIndex f (indexCall (Hansard.corpus t db) cfg s)).1.data queries field = (values, totals, inters) ∧
      totals.length = values.length ∧ totals.sum = db.pages.length ∧
      ∀ n q, Dict.get? queries n = some q → (∀ d ∈ q, d < db.pages.length) →
        ((Dict.get? inters n).getD []).length = values.length ∧ ((Dict.get? inters n).getD []).sum = q.card := by
  obtain ⟨content, hs, hi, hv⟩ := hansard_serves hr
  have hkeys : (Hansard.corpus t db).keys ≠ [] := by
    show db.pages.map (·.id) ≠ []
    simpa using hne
  obtain ⟨-, hwf, hI, -⟩ := any_index hs cfg (hi _) hkeys s hf hno f hu
  have hlen : (Hansard.corpus t db).keys.length = db.pages.length := List.length_map _
  have := trend_adds_up hwf hI field ?_ queries hq
  · rw [hlen] at this
    exact this
  · intro k hk
    obtain ⟨p, hp, rfl⟩ := List.mem_map.1 hk
    obtain ⟨debate, title, root, y, m, d, hfacts⟩ := hr.facts p hp
    have hval := (hv p hp _ _ _ _ _ _ hfacts).1
    have hc := hfacts.calendar
    have one : ∀ a b c, Calendar a b c → ∀ w, (∃ s, WrittenDay s a b c ∧ w = Val.text s) ↔ w = .text (Hansard.Date.iso ⟨a, b, c⟩) := by
      intro a b c hc w
      constructor
      · rintro ⟨s, hs, rfl⟩; rw [written_unique hs (iso_written a b c hc)]
      · rintro rfl; exact ⟨_, iso_written a b c hc, rfl⟩
    simp only [List.mem_cons, List.not_mem_nil, or_false] at hfield
    rcases hfield with rfl | rfl | rfl
    · exact ⟨_, fun w => ((hval _ w).trans (by simp [HansardValue])).trans (one y m d hc w)⟩
    · exact ⟨_, fun w => ((hval _ w).trans (by simp [HansardValue])).trans (one y m 1 (calendar_month hc) w)⟩
    · exact ⟨_, fun w => ((hval _ w).trans (by simp [HansardValue])).trans (one y 1 1 (calendar_year hc) w)⟩

/-! ## Examples -/

/-- Two clusters of the example over the values of the field `t`: between the first and the last value there is one, with two documents,
one of which is in the second cluster. -/
example : (clusterTrends queryDb [(1, ["a", "b"]), (2, ["c"])] "t").toOption =
      some [("a b ...", [(.text "b", 100)]), ("c ...", [(.text "b", 50)])] ∧
    (clusterDocs queryDb 1).toOption.isSome ∧ (clusterDocs queryDb 2).toOption.isSome ∧
    ([(1, ["a", "b"]), (2, ["c"])].map (fun x : Int × List String => label x.2)).Nodup ∧ Wellformed queryDb ∧
    (∃ v, (queryDb.docsOfKey "t" v).Nonempty) :=
  ⟨by decide +kernel, by decide +kernel, by decide +kernel, by decide +kernel, queryDb_settled.toWellformed, .text "a", by decide +kernel⟩

/-- With the same label only one of them is left. -/
example : (clusterTrends queryDb [(1, ["a"]), (2, ["a"])] "t").toOption.map (fun l => l.length) = some 1 ∧
    ¬ ([(1, ["a"]), (2, ["a"])].map (fun x : Int × List String => label x.2)).Nodup ∧ (intersectQueries queryDb [] "t").1 ≠ [] :=
  ⟨by decide +kernel, by decide +kernel, by decide +kernel⟩

/-- Shares of a query in a reference query: half of them, and none where there are none. -/
example : (sharesOr [2, 0] [4, 0]).toOption = some [50, 0] ∧ (shares [2, 0] [4, 0]).toOption = none := by decide +kernel

/-- The first and the third page of the Hansard example by month. -/
example : ∃ values totals inters,
    intersectQueries (Pipeline.onIndex earlierFile (indexCall (Hansard.corpus hansardOps demoHansard) ⟨2, 2, true⟩ demoSchedule)).1.data
      [("q", {0, 2})] "month" = (values, totals, inters) ∧ totals.sum = 3 ∧ ((Dict.get? inters "q").getD []).sum = 2 := by
  obtain ⟨values, totals, inters, h1, -, h2, h3⟩ := pages_by_date hansardOps demoHansard demoHansard_readable (by decide +kernel) ⟨2, 2, true⟩
    demoSchedule demo_fair (fun _ => rfl) earlierFile earlierFile_usable "month" (by simp) [("q", {0, 2})] (by decide)
  refine ⟨values, totals, inters, h1, h2, ?_⟩
  exact (h3 "q" {0, 2} rfl (by decide +kernel)).2.trans (by decide)

end Hyperreal.Props
