import Verif.Model.Query
import Verif.Spec.Query
import Verif.Lemmas.Assign
import Verif.Lemmas.Dict
import Verif.Lemmas.Bitmap
import Verif.Lemmas.FieldSummary
import Mathlib.Tactic

/-! Lemmas about listings. -/

namespace Hyperreal
open Spec DB

section
variable {α σ : Type} [LinearOrder σ]

theorem orderDesc_perm (key : α → σ) (l : List α) : (orderDesc key l).Perm l := List.perm_insertionSort _ _

theorem orderDesc_sorted (key : α → σ) (l : List α) : (orderDesc key l).Pairwise (fun a b => key b ≤ key a) := by
  haveI : Std.Total (fun a b : α => key b ≤ key a) := ⟨fun a b => le_total (key b) (key a)⟩
  haveI : IsTrans α (fun a b : α => key b ≤ key a) := ⟨fun a b c h1 h2 => le_trans h2 h1⟩
  exact List.pairwise_insertionSort _ _

end

theorem feature?_eq_some {db : DB} (h : Wellformed db) (f : Nat) (r : FeatRow) :
    db.feature? f = some r ↔ r ∈ db.features ∧ r.fid = f := by
  constructor
  · intro hh
    exact ⟨List.mem_of_find?_eq_some hh, by simpa using List.find?_some hh⟩
  · rintro ⟨h1, rfl⟩
    exact feature?_of_mem h.featureIds h1

theorem mem_featuresIn {db : DB} (h : Wellformed db) (c : Int) (f : Nat) : f ∈ featuresIn db c ↔ assign db f = some c := by
  rw [assign_some_iff h]
  simp [featuresIn, List.mem_map, List.mem_filter]
  constructor
  · rintro ⟨r, h1, h2⟩; exact ⟨r, h1.1, h2, h1.2⟩
  · rintro ⟨r, h1, h2, h3⟩; exact ⟨r, ⟨h1, h3⟩, h2⟩

theorem featuresIn_nodup {db : DB} (h : Wellformed db) (c : Int) : (featuresIn db c).Nodup :=
  (List.filter_sublist.map _).nodup h.oneCluster

theorem clusterRows_fids {db : DB} (h : Wellformed db) (c : Int) : (clusterRows db c).map (·.fid) = featuresIn db c := by
  unfold clusterRows featuresIn members
  have : ∀ l : List FCRow, (∀ r ∈ l, r ∈ db.fc) →
      (l.filterMap (fun r => (db.feature? r.fid).map (fun f => (⟨r.fid, f.field, f.value, r.docsCount⟩ : Listed)))).map (·.fid) =
        l.map (·.fid) := by
    intro l
    induction l with
    | nil => intro _; rfl
    | cons r l ih =>
      intro hl
      obtain ⟨f, hf, hfid, -⟩ := h.knownFeature r (hl r (by simp))
      have : db.feature? r.fid = some f := (feature?_eq_some h _ _).2 ⟨hf, hfid⟩
      rw [List.filterMap_cons, this]
      simp [ih (fun x hx => hl x (by simp [hx]))]
  exact this _ (fun r hr => (List.mem_filter.1 hr).1)

theorem mem_clusterRows {db : DB} (h : Wellformed db) (c : Int) (x : Listed) :
    x ∈ clusterRows db c ↔ assign db x.fid = some c ∧ (∃ r ∈ db.features, r.fid = x.fid ∧ r.field = x.field ∧ r.value = x.value) ∧
      x.docsCount = (db.docsOf x.fid).card := by
  simp only [clusterRows, List.mem_filterMap, Option.map_eq_some_iff, members, List.mem_filter, decide_eq_true_eq,
    assign_some_iff h]
  constructor
  · rintro ⟨r, ⟨h1, h2⟩, f, h3, rfl⟩
    obtain ⟨g, hg, e1, e2⟩ := h.knownFeature r h1
    obtain ⟨k1, k2⟩ := (feature?_eq_some h _ _).1 h3
    have : g = f := by
      have := (feature?_eq_some h _ _).2 ⟨hg, e1⟩
      rw [this] at h3; exact Option.some.inj h3
    subst this
    refine ⟨⟨r, h1, rfl, h2⟩, ⟨g, hg, e1, rfl, rfl⟩, ?_⟩
    simp only [docsOf, h3]
    rw [← e2, h.counts g hg]
  · rintro ⟨⟨r, h1, h2, h3⟩, ⟨g, h4, h5, h6, h7⟩, h8⟩
    obtain ⟨g', hg', e1, e2⟩ := h.knownFeature r h1
    have hgg : g' = g := by
      have a := (feature?_eq_some h x.fid g).2 ⟨h4, h5⟩
      have b := (feature?_eq_some h x.fid g').2 ⟨hg', e1.trans h2⟩
      rw [a] at b; exact (Option.some.inj b).symm
    subst hgg
    refine ⟨r, ⟨h1, h3⟩, g', (feature?_eq_some h _ _).2 ⟨hg', e1⟩, ?_⟩
    cases x
    simp only [Listed.mk.injEq] at *
    refine ⟨h2, h6, h7, ?_⟩
    rw [h8, docsOf, (feature?_eq_some h _ _).2 ⟨h4, h5⟩, ← e2, h.counts _ h4]

/-- The whole listing of a cluster, before truncation. -/
theorem listing_perm {visit : List Listed → List Listed} (hv : AnyOrder visit) (db : DB) (c : Int) :
    (orderDesc (·.docsCount) (visit (clusterRows db c))).Perm (clusterRows db c) :=
  (orderDesc_perm _ _).trans (hv _)

theorem clusterFeatures_perm {visit : List Listed → List Listed} (hv : AnyOrder visit) (db : DB) (c : Int) (k : Nat)
    (hk : (clusterRows db c).length ≤ k) : (clusterFeatures visit db c k).Perm (clusterRows db c) := by
  unfold clusterFeatures
  rw [List.take_of_length_le]
  · exact listing_perm hv db c
  · rw [(listing_perm hv db c).length_eq]; exact hk

theorem find?_cluster {db : DB} (h : Wellformed db) {k : ClusterRow} (hk : k ∈ db.clusters) :
    db.clusters.find? (fun r => r.cid = k.cid) = some k := (find?_cid_iff h.clusterIds _ _).2 ⟨hk, rfl⟩

theorem clusterDocs_spec {db : DB} (h : Settled db) (c : Int) (hc : hasCluster db c) :
    ∃ D, clusterDocs db c = .ok D ∧ ∀ d, d ∈ D ↔ CoveredBy db c d := by
  obtain ⟨k, hk, rfl⟩ := hc
  obtain ⟨D, h1, -, h3⟩ := (h.summaries k hk).docs
  refine ⟨D, ?_, ?_⟩
  · rw [clusterDocs, find?_cluster h.toWellformed hk]; simp [h1]
  · intro d
    rw [h3, CoveredBy]
    constructor
    · rintro ⟨r, k1, k2, k3⟩
      exact ⟨r.fid, (assign_some_iff h.toWellformed _ _).2 ⟨r, k1, rfl, k2⟩, k3⟩
    · rintro ⟨f, k1, k2⟩
      obtain ⟨r, e1, e2, e3⟩ := (assign_some_iff h.toWellformed _ _).1 k1
      exact ⟨r, e1, e3, by rw [e2]; exact k2⟩

theorem clusterDocs_unknown {db : DB} (c : Int) (hc : ¬ hasCluster db c) : clusterDocs db c = .error .indexError := by
  have : db.clusters.find? (fun r => r.cid = c) = none := by
    rw [List.find?_eq_none]
    intro x hx; simp only [decide_eq_true_eq]
    exact fun h => hc ⟨x, hx, h⟩
  rw [clusterDocs, this]

end Hyperreal
