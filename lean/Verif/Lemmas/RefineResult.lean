import Verif.Lemmas.RefinePlan
import Verif.Spec.Refine

/-! Lemmas about `refinePlan`, from what is read to what is stored. -/

namespace Hyperreal
open Spec

variable {σ : Type} [LinearOrder σ]

/-- The clusters that are refined, and how many pinned ones were left out. -/
def startOf (args : RefineArgs) (db : DB) : Clustering × Nat := dropPinned (pinnedClusterIds db) (selectClusters args db)

/-- The parameters handed to the refinement of groups. -/
def cfgOf (args : RefineArgs) (db : DB) : GroupCfg :=
  ⟨args.iterations.toNat, args.minFeatures, args.tolerance,
    some (orDefault args.target (selectClusters args db).length - (startOf args db).2)⟩

def batchesOf (args : RefineArgs) (db : DB) : Nat := args.groupBatches.getD (autoBatches (startOf args db).1.length)

theorem mem_chosen {args : RefineArgs} {db : DB} (c : Int) (hc : hasCluster db c) :
    c ∈ chosen args db ↔ Selected args.clusterIds c := by
  unfold chosen Selected
  by_cases h : args.clusterIds = []
  · simp only [h, if_true, true_or, iff_true]
    obtain ⟨k, hk, rfl⟩ := hc
    exact List.mem_map.2 ⟨k, hk, rfl⟩
  · simp [h]

theorem mem_refinable {db : DB} (h : Wellformed db) (S : List Int) (c : Int) :
    c ∈ refinable db S ↔ hasCluster db c ∧ Selected S c ∧ clusterPin db c ≠ some true := by
  simp only [refinable, List.mem_map, List.mem_filter, decide_eq_true_eq]
  constructor
  · rintro ⟨k, ⟨hk, h1, h2⟩, rfl⟩
    refine ⟨⟨k, hk, rfl⟩, h1, ?_⟩
    rw [(clusterPin_some_iff h.clusterIds k.cid k.pinned).2 ⟨k, hk, rfl, rfl⟩, h2]
    simp
  · rintro ⟨⟨k, hk, rfl⟩, h1, h2⟩
    refine ⟨k, ⟨hk, h1, ?_⟩, rfl⟩
    rw [(clusterPin_some_iff h.clusterIds k.cid k.pinned).2 ⟨k, hk, rfl, rfl⟩] at h2
    simpa using h2

theorem mem_pinnedSelected {db : DB} (h : Wellformed db) (S : List Int) (c : Int) :
    c ∈ pinnedSelected db S ↔ hasCluster db c ∧ Selected S c ∧ clusterPin db c = some true := by
  simp only [pinnedSelected, List.mem_map, List.mem_filter, decide_eq_true_eq]
  constructor
  · rintro ⟨k, ⟨hk, h1, h2⟩, rfl⟩
    refine ⟨⟨k, hk, rfl⟩, h1, ?_⟩
    rw [(clusterPin_some_iff h.clusterIds k.cid k.pinned).2 ⟨k, hk, rfl, rfl⟩, h2]
  · rintro ⟨⟨k, hk, rfl⟩, h1, h2⟩
    refine ⟨k, ⟨hk, h1, ?_⟩, rfl⟩
    rw [(clusterPin_some_iff h.clusterIds k.cid k.pinned).2 ⟨k, hk, rfl, rfl⟩] at h2
    simpa using h2

theorem refinable_nodup {db : DB} (h : Wellformed db) (S : List Int) : (refinable db S).Nodup :=
  h.clusterIds.sublist (List.filter_sublist.map _)

theorem pinnedSelected_nodup {db : DB} (h : Wellformed db) (S : List Int) : (pinnedSelected db S).Nodup :=
  h.clusterIds.sublist (List.filter_sublist.map _)

theorem start_spec (args : RefineArgs) {db : DB} (h : Settled db) :
    (startOf args db).1.keys.Nodup ∧
    (∀ c, c ∈ (startOf args db).1.keys ↔ c ∈ refinable db args.clusterIds) ∧
    (∀ c f, In (startOf args db).1 c f ↔ assign db f = some c ∧ c ∈ refinable db args.clusterIds) ∧
    (startOf args db).1.length = (refinable db args.clusterIds).length ∧
    (startOf args db).2 = (pinnedSelected db args.clusterIds).length ∧
    (selectClusters args db).length = (refinable db args.clusterIds).length + (pinnedSelected db args.clusterIds).length := by
  obtain ⟨s1, s2, s3⟩ := selectClusters_spec args h.toWellformed
  obtain ⟨d1, d2, -, d4, d5⟩ := dropPinned_spec (pinnedClusterIds db) (selectClusters args db) 0 s1
  have hkeys : ∀ c, c ∈ (selectClusters args db).keys ↔ hasCluster db c ∧ Selected args.clusterIds c := by
    intro c
    rw [s3, ← hasCluster_iff_assign h]
    constructor
    · rintro ⟨h1, h2⟩; exact ⟨h2, (mem_chosen c h2).1 h1⟩
    · rintro ⟨h1, h2⟩; exact ⟨(mem_chosen c h1).2 h2, h1⟩
  have hn : (startOf args db).1.keys.Nodup := by
    show (Dict.keys _).Nodup
    rw [show (startOf args db).1.keys = _ from d1]
    exact s1.filter _
  have hk : ∀ c, c ∈ (startOf args db).1.keys ↔ c ∈ refinable db args.clusterIds := by
    intro c
    rw [show (startOf args db).1.keys = _ from d1, List.mem_filter, hkeys, mem_refinable h.toWellformed]
    simp only [decide_eq_true_eq, mem_pinnedClusterIds h.toWellformed]
    tauto
  have hlen : (startOf args db).1.length = (refinable db args.clusterIds).length := by
    rw [Dict.length_eq_keys]
    exact ((List.perm_ext_iff_of_nodup hn (refinable_nodup h.toWellformed _)).2 hk).length_eq
  have hp : (startOf args db).2 = (pinnedSelected db args.clusterIds).length := by
    rw [show (startOf args db).2 = _ from d5, Nat.zero_add]
    refine ((List.perm_ext_iff_of_nodup (s1.filter _) (pinnedSelected_nodup h.toWellformed _)).2 ?_).length_eq
    intro c
    rw [List.mem_filter, hkeys, mem_pinnedSelected h.toWellformed]
    simp only [decide_eq_true_eq, mem_pinnedClusterIds h.toWellformed]
    tauto
  refine ⟨hn, hk, ?_, hlen, hp, ?_⟩
  · intro c f
    rw [show In (startOf args db).1 c f ↔ _ from d2 c f, s2, mem_refinable h.toWellformed,
      mem_pinnedClusterIds h.toWellformed]
    constructor
    · rintro ⟨⟨h1, h2⟩, h3⟩
      have hc : hasCluster db c := (hasCluster_iff_assign h c).2 ⟨f, h1⟩
      exact ⟨h1, hc, (mem_chosen c hc).1 h2, h3⟩
    · rintro ⟨h1, hc, h2, h3⟩
      exact ⟨⟨h1, (mem_chosen c hc).2 h2⟩, h3⟩
  · rw [← hlen, ← hp]
    have : (startOf args db).1.length + (startOf args db).2 = (selectClusters args db).length + 0 := d4
    omega

/-- Is the `i`-th new cluster deleted again while the new clusters are renumbered?  `a`, `b`: first local and global new id. -/
def Lost (a b : Int) (n : Nat) (i : Nat) : Prop := a < b ∧ (b - a) + i < n

/-- What the stored plan contains. -/
structure PlanOk (args : RefineArgs) (db : DB) (cf1 : Clustering) (newIds : List Int) (m : List (Int × List Nat)) :
    Prop where
  iterations : 1 ≤ args.iterations
  groups : GroupsOk (cfgOf args db) (selectPinned args db) (startOf args db).1 cf1 newIds
  only : ∀ c f, (c, f) ∈ pairsOf m → (c ∈ (startOf args db).1.keys ∧ In cf1 c f) ∨
    ∃ i : Nat, i < newIds.length ∧ c = nextClusterId db + i ∧ In cf1 (nextLocalId (startOf args db).1 + i) f
  old : ∀ c f, c ∈ (startOf args db).1.keys → In cf1 c f → (c, f) ∈ pairsOf m
  kept : ∀ i : Nat, i < newIds.length → ¬ Lost (nextLocalId (startOf args db).1) (nextClusterId db) newIds.length i →
    ∀ f, (nextClusterId db + i, f) ∈ pairsOf m ↔ In cf1 (nextLocalId (startOf args db).1 + i) f
  lost : ∀ i : Nat, i < newIds.length → Lost (nextLocalId (startOf args db).1) (nextClusterId db) newIds.length i →
    ∀ f, (nextClusterId db + i, f) ∉ pairsOf m

theorem nextLocalId_mem {cf : Clustering} (h : cf ≠ []) : ∃ c ∈ cf.keys, nextLocalId cf = c + 1 := by
  have key : ∀ (l : List Int) (a : Int), l.foldl max a ∈ a :: l := by
    intro l
    induction l with
    | nil => simp
    | cons b l ih =>
      intro a
      rw [List.foldl_cons]
      have := ih (max a b)
      rcases List.mem_cons.1 this with h | h
      · rw [h]
        rcases max_choice a b with h | h <;> rw [h] <;> simp
      · simp [h]
  unfold nextLocalId
  cases hk : cf.keys with
  | nil => simp [Dict.keys] at hk; exact absurd hk h
  | cons a l => exact ⟨_, key l a, rfl⟩

theorem startIds_lt {args : RefineArgs} {db : DB} (h : Settled db) :
    ∀ c ∈ (startOf args db).1.keys, c < nextClusterId db := by
  obtain ⟨-, k2, -⟩ := start_spec args h
  intro c hc
  obtain ⟨⟨k, hk, rfl⟩, -⟩ := (mem_refinable h.toWellformed _ _).1 ((k2 c).1 hc)
  exact nextClusterId_fresh db k hk

theorem startDisjointed {args : RefineArgs} {db : DB} (h : Settled db) : Disjointed (startOf args db).1 := by
  obtain ⟨-, -, k3, -⟩ := start_spec args h
  intro f c c' hc hc'
  have h1 := ((k3 c f).1 hc).1
  have h2 := ((k3 c' f).1 hc').1
  rw [h1] at h2
  exact Option.some.inj h2

theorem plan_spec {score : DB → Nat → Finset Nat → Nat → Clustering → Except Err (Scores σ Int)} {ch : Chance}
    {args : RefineArgs} {db : DB} {m : List (Int × List Nat)} (h : Settled db)
    (hp : refinePlan score ch args db = .ok m) :
    ∃ cf1 newIds, refineGroups (score db (batchesOf args db)) ch (cfgOf args db) (selectPinned args db)
      (startOf args db).1 = .ok (cf1, newIds) ∧ PlanOk args db cf1 newIds m := by
  unfold refinePlan at hp
  split at hp
  · cases hp
  · rename_i hit
    simp only at hp
    obtain ⟨r, hr, hp⟩ := bind_ok hp
    obtain ⟨saved, hsv, hp⟩ := bind_ok hp
    obtain ⟨cf2, hcf2, hp⟩ := bind_ok hp
    simp only [pure, Except.pure, Except.ok.injEq] at hp
    subst hp
    obtain ⟨k1, k2, k3, -⟩ := start_spec args h
    have hg := refineGroups_spec k1 (startDisjointed h) hr
    refine ⟨r.1, r.2, hr, ?_⟩
    have hnd : r.2.Nodup := by rw [hg.newIds_eq]; exact rangeFrom_nodup _ _
    have hsv' := saved_spec hnd hsv
    have hsome : ∀ c ∈ r.2, (Dict.get? saved c).isSome := by
      intro c hc
      obtain ⟨h1, h2⟩ := hsv' c hc
      obtain ⟨v, hv⟩ := (Dict.get?_isSome _ _).2 h2
      rw [h1, hv]; rfl
    obtain ⟨m1, m2, m3, m4⟩ := remap_spec r.2 (nextClusterId db) hnd hg.nodup hsome hcf2
    set a := nextLocalId (startOf args db).1 with ha
    set b := nextClusterId db with hb
    set n := r.2.length with hn
    have helem : ∀ (j : Nat) (hj : j < n), r.2[j]? = some (a + j) := by
      intro j hj
      rw [hn] at hj
      have e : r.2 = rangeFrom a _ := hg.newIds_eq
      rw [e] at hj ⊢
      rw [rangeFrom_length] at hj
      simp only [rangeFrom]
      rw [List.getElem?_map, List.getElem?_range hj]
      rfl
    have helem' : ∀ (j : Nat) (hj : j < r.2.length), r.2[j] = a + j := by
      intro j hj
      have := helem j hj
      rw [List.getElem?_eq_getElem hj] at this
      exact Option.some.inj this
    have hab : 0 < n → a ≤ b := by
      intro hpos
      by_cases hne : (startOf args db).1 = []
      · exfalso
        have e := hg.newIds_eq
        rw [hne] at e
        simp [rangeFrom] at e
        rw [hn, e] at hpos
        simp at hpos
      · obtain ⟨c, hc, e⟩ := nextLocalId_mem hne
        have := startIds_lt h c hc
        rw [ha, e, hb]; omega
    have hnew : ∀ c ∈ r.2, a ≤ c := by
      intro c hc
      rw [hg.newIds_eq] at hc
      exact (mem_rangeFrom.1 hc).1
    have hold : ∀ c ∈ (startOf args db).1.keys, c ∉ r.2 ∧ c < a := by
      intro c hc
      have : c < a := nextLocalId_fresh _ c hc
      exact ⟨fun h => by have := hnew c h; omega, this⟩
    have hlt := startIds_lt (args := args) h
    -- the value stored for a new cluster
    have hkeep : ∀ i : Nat, i < n → ¬ Lost a b n i → cf2.get? (b + i) = r.1.get? (a + i) := by
      intro i hi hl
      have := m2 i hi (by
        intro j hij hj
        by_cases hjn : j < n
        · rw [helem j hjn] at hj
          have := Option.some.inj hj
          exact hl ⟨by omega, by omega⟩
        · rw [List.getElem?_eq_none (by omega)] at hj
          cases hj)
      rw [this, helem' i hi, (hsv' _ (by rw [← helem' i hi]; exact List.getElem_mem hi)).1]
    have hgone : ∀ i : Nat, i < n → Lost a b n i → cf2.get? (b + i) = none := by
      intro i hi hl
      obtain ⟨hl1, hl2⟩ := hl
      refine m3 i (b - a + i).toNat (by omega) ?_
      rw [helem _ (by omega)]
      congr 1
      omega
    refine ⟨by omega, hg, ?_, ?_, ?_, ?_⟩
    · intro c f hcf
      rw [mem_pairsOf_map m1] at hcf
      obtain ⟨G, hG, hf⟩ := hcf
      by_cases hr : b ≤ c ∧ c < b + n
      · right
        refine ⟨(c - b).toNat, by omega, by omega, ?_⟩
        have hc : c = b + ((c - b).toNat : Int) := by omega
        by_cases hl : Lost a b n (c - b).toNat
        · rw [hc, hgone _ (by omega) hl] at hG
          cases hG
        · rw [hc, hkeep _ (by omega) hl] at hG
          exact ⟨G, hG, hf⟩
      · left
        rw [m4 c (by omega)] at hG
        split at hG
        · cases hG
        · rename_i hcn
          have hin : In r.1 c f := ⟨G, hG, hf⟩
          refine ⟨?_, hin⟩
          rcases hg.keysFrom c hin.key with h | h
          · exact h
          · exact absurd h hcn
    · intro c f hc hin
      rw [mem_pairsOf_map m1]
      obtain ⟨G, hG, hf⟩ := hin
      refine ⟨G, ?_, hf⟩
      rw [m4 c (Or.inl (hlt c hc)), if_neg (hold c hc).1, hG]
    · intro i hi hl f
      rw [mem_pairsOf_map m1]
      unfold In
      rw [hkeep i hi hl]
    · intro i hi hl f
      rw [mem_pairsOf_map m1]
      rintro ⟨G, hG, -⟩
      rw [hgone i hi hl] at hG
      cases hG

/-- A feature is in at most one stored cluster. -/
theorem PlanOk.unique {args : RefineArgs} {db : DB} {cf1 : Clustering} {newIds : List Int} {m : List (Int × List Nat)}
    (h : PlanOk args db cf1 newIds m) {c c' : Int} {f : Nat} (h1 : (c, f) ∈ pairsOf m) (h2 : (c', f) ∈ pairsOf m) :
    c = c' := by
  have hold : ∀ c ∈ (startOf args db).1.keys, c < nextLocalId (startOf args db).1 := nextLocalId_fresh _
  rcases h.only c f h1 with ⟨a1, a2⟩ | ⟨i, hi, rfl, a3⟩ <;> rcases h.only c' f h2 with ⟨b1, b2⟩ | ⟨j, hj, rfl, b3⟩
  · exact h.groups.disjointed f _ _ a2 b2
  · have := h.groups.disjointed f _ _ a2 b3
    have := hold c a1; omega
  · have := h.groups.disjointed f _ _ a3 b2
    have := hold c' b1; omega
  · have := h.groups.disjointed f _ _ a3 b3
    omega

/-- Where a feature ends up. -/
theorem PlanOk.dest {args : RefineArgs} {db : DB} {cf1 : Clustering} {newIds : List Int} {m : List (Int × List Nat)}
    (h : PlanOk args db cf1 newIds m) (f : Nat) (x y : Int) :
    lastAssigned (pairsOf m) f x = y ↔ (y, f) ∈ pairsOf m ∨ (y = x ∧ ∀ c, (c, f) ∉ pairsOf m) := by
  rcases lastAssigned_cases f (pairsOf m) x with h1 | ⟨h1, h2⟩
  · constructor
    · rintro rfl; exact Or.inl h1
    · rintro (h3 | ⟨-, h3⟩)
      · exact h.unique h1 h3
      · exact absurd h1 (h3 _)
  · rw [h1]
    constructor
    · rintro rfl; exact Or.inr ⟨rfl, h2⟩
    · rintro (h3 | ⟨rfl, -⟩)
      · exact absurd h3 (h2 _)
      · rfl

end Hyperreal
