import Verif.Lemmas.RefineExec

/-!
# Properties of refinement (C22, C23, C24, C25, C26, C27, C28)

`refineClusters score ch args` is `Index.refine_clusters(...)`: `ch` are the outcomes of all random draws, `score` is the
scoring of moves.  Everything up to C27 holds for every scoring function, hence also for floating point scores.
`hret` says that the call returned normally (C28 says when it does).
-/

namespace Hyperreal.Props
open Spec Atomic DB

variable {σ : Type} [LinearOrder σ]

/-! ## A concrete index to run the refinement on -/

/-- Draws for the examples: features and clusters are visited in order, every improving move is accepted and even features
go to the new cluster of a split. -/
def demoChance : Chance where
  coin := fun _ f => f % 2 == 0
  order := fun _ l => l
  order_perm := fun _ _ => .refl _
  accept := fun _ _ => true
  pick := fun _ _ => 0
  clusterOrder := fun _ l => l
  clusterOrder_perm := fun _ _ => .refl _
  setOrder := fun _ l => l
  setOrder_perm := fun _ _ => .refl _

/-- Six features over three documents; features 1, 2, 5 occur together, and 3, 4, 6. -/
def refineIndex : DB :=
  { docKeys := [(0, .int 0), (1, .int 1), (2, .int 2)]
    features := [⟨1, "t", .text "a", 2, {0, 1}⟩, ⟨2, "t", .text "b", 2, {0, 1}⟩, ⟨3, "t", .text "c", 1, {2}⟩,
                 ⟨4, "t", .text "d", 1, {2}⟩, ⟨5, "t", .text "e", 2, {0, 1}⟩, ⟨6, "t", .text "f", 1, {2}⟩]
    fieldSummary := [⟨"t", 6, .text "a", .text "f", 0⟩] }

theorem refineIndex_settled : Settled refineIndex where
  featureIds := by decide
  featureKeys := by decide
  counts := by decide
  oneCluster := by decide
  clusterIds := by decide
  knownFeature := by simp [refineIndex]
  knownCluster := by simp [refineIndex]
  summaries := by simp [refineIndex]
  nothingPending := rfl

/-- Execute public calls one after the other. -/
def execAll (ops : List ModelOp) (c : Conn DB) : Conn DB := ops.foldl (fun c op => (op.exec none c).1) c

/-- Which feature is in which cluster. -/
def assignments (db : DB) : List (Nat × Int) := db.fc.map (fun r => (r.fid, r.cid))

/-- Make one cluster per list; they are numbered from 1. -/
def groups (l : List (List Nat)) : List ModelOp := l.map ModelOp.create

/-- The refinement with the code's scoring. -/
def refineDemo (args : RefineArgs) : ModelOp := refineClusters (exactScorer demoChance args) demoChance args

/-- What a sequence of public calls on the example index stores. -/
def ran (ops : List ModelOp) : List (Nat × Int) := assignments (execAll ops (Conn.fresh refineIndex)).committed

/-- The exception of a call after a sequence of public calls. -/
def raised (ops : List ModelOp) (op : ModelOp) : Option Err :=
  match (op.exec none (execAll ops (Conn.fresh refineIndex))).2 with
  | .error e => some e
  | .ok _ => none

/-- Two mixed clusters: the refinement returns and finds the two groups.  (The hypotheses of the theorems below are met:
the connection is idle and the database settled, by C15.) -/
example : raised (groups [[1, 3, 5], [2, 4, 6]]) (refineDemo {}) = none ∧
    ran (groups [[1, 3, 5], [2, 4, 6]]) = [(1, 1), (3, 1), (5, 1), (2, 2), (4, 2), (6, 2)] ∧
    ran (groups [[1, 3, 5], [2, 4, 6]] ++ [refineDemo {}]) = [(1, 1), (3, 2), (5, 1), (2, 1), (4, 2), (6, 2)] := by
  decide +kernel

/-! ## C22 -/

/-- **C22.** Whatever the parameters, scores and draws, and whether it returns or raises: after `refine_clusters` the database
is sound, has the same features in the model as before, and each of them in exactly one cluster. -/
theorem refine_permutes (score : DB → Nat → Finset Nat → Nat → Clustering → Except Err (Scores σ Int)) (ch : Chance)
    (args : RefineArgs) (c : Conn DB) (db : DB) (hc : Idle c db) (hs : Settled db) :
    let db' := ((refineClusters score ch args).exec none c).1.committed
    Settled db' ∧ (db'.fc.map (·.fid)).Nodup ∧ (∀ f, (∃ r ∈ db'.fc, r.fid = f) ↔ ∃ r ∈ db.fc, r.fid = f) := by
  intro db'
  cases hp : refinePlan score ch args db with
  | error e =>
    have e1 : db' = db := (refine_err hc hs hp).2.1
    rw [e1]
    exact ⟨hs, hs.oneCluster, fun f => Iff.rfl⟩
  | ok m =>
    obtain ⟨db2, e1, e2, -, -⟩ := refine_keeps_pins (refinePlan score ch args) m c db hc hs hp
    have e : db' = db2 := e1.idle.committed
    rw [e]
    refine ⟨e1.settled, e1.settled.oneCluster, fun f => ?_⟩
    have key : ∀ d : DB, Wellformed d → ((∃ r ∈ d.fc, r.fid = f) ↔ ∃ x, assign d f = some x) := by
      intro d hd
      simp only [assign_some_iff hd]
      constructor
      · rintro ⟨r, hr, h⟩; exact ⟨r.cid, r, hr, h, rfl⟩
      · rintro ⟨x, r, hr, h, -⟩; exact ⟨r, hr, h⟩
    rw [key _ e1.settled.toWellformed, key _ hs.toWellformed, e2]
    cases assign db f <;> simp

/-! ## C23 -/

/-- **C23.** Pinned features stay in their cluster, pinned clusters keep exactly their features, and all pins stay. -/
theorem refine_keeps_pinned (score : DB → Nat → Finset Nat → Nat → Clustering → Except Err (Scores σ Int)) (ch : Chance)
    (args : RefineArgs) (c : Conn DB) (db : DB) (hc : Idle c db) (hs : Settled db)
    (hret : ((refineClusters score ch args).exec none c).2 = .ok .none) :
    ∃ db', EditOk (refineClusters score ch args) c db db' .none ∧
      (∀ f, featurePin db f = some true → assign db' f = assign db f) ∧
      (∀ x, clusterPin db x = some true → hasCluster db' x ∧ ∀ f, assign db' f = some x ↔ assign db f = some x) ∧
      (∀ f, featurePin db' f = featurePin db f) ∧
      (∀ x, hasCluster db' x → clusterPin db' x = some ((clusterPin db x).getD false)) := by
  obtain ⟨db', cf1, newIds, m, h1, -, hP, h2, h3, h4⟩ := refine_ran hc hs hret
  obtain ⟨k1, k2, k3, -⟩ := start_spec args hs
  have hold : ∀ c ∈ (startOf args db).1.keys, c < nextLocalId (startOf args db).1 := nextLocalId_fresh _
  -- a pinned cluster
  have hcl : ∀ x, clusterPin db x = some true → ∀ f, assign db' f = some x ↔ assign db f = some x := by
    intro x hx f
    have hxr : x ∉ (startOf args db).1.keys := by
      rw [k2, mem_refinable hs.toWellformed]
      exact fun h => h.2.2 hx
    have hxl : x < nextClusterId db := by
      obtain ⟨k, hk, e, -⟩ := (clusterPin_some_iff hs.clusterIds x true).1 hx
      rw [← e]; exact nextClusterId_fresh db k hk
    have hnp : (x, f) ∉ pairsOf m := by
      intro hp
      rcases hP.only x f hp with ⟨h, -⟩ | ⟨i, -, e, -⟩
      · exact hxr h
      · omega
    rw [h2 f]
    constructor
    · intro h
      obtain ⟨y, hy, e⟩ := Option.map_eq_some_iff.1 h
      rcases (hP.dest f y x).1 e with h | ⟨rfl, -⟩
      · exact absurd h hnp
      · exact hy
    · intro h
      rw [h, Option.map_some, (hP.dest f x x).2 (Or.inr ⟨rfl, fun z hz => ?_⟩)]
      have : ∃ w, In (startOf args db).1 w f := by
        rw [← hP.groups.sameFeatures]
        rcases hP.only z f hz with ⟨-, h⟩ | ⟨i, -, -, h⟩
        · exact ⟨_, h⟩
        · exact ⟨_, h⟩
      obtain ⟨w, hw⟩ := this
      obtain ⟨hw1, hw2⟩ := (k3 w f).1 hw
      rw [h] at hw1
      cases hw1
      exact hxr ((k2 _).2 hw2)
  refine ⟨db', h1, ?_, ?_, h3, h4⟩
  · intro f hf
    rw [h2 f]
    cases hx : assign db f with
    | none => rfl
    | some x =>
      rw [Option.map_some]
      congr 1
      rw [hP.dest f x x]
      by_cases hp : ∃ z, (z, f) ∈ pairsOf m
      · left
        obtain ⟨z, hz⟩ := hp
        have hin : ∀ w, In cf1 w f → w = x := by
          intro w hw
          obtain ⟨u, hu⟩ := (hP.groups.sameFeatures f).1 ⟨w, hw⟩
          obtain ⟨hu1, hu2⟩ := (k3 u f).1 hu
          obtain ⟨hu3, hu4, -⟩ := (mem_refinable hs.toWellformed _ _).1 hu2
          have hpin : f ∈ selectPinned args db :=
            (mem_selectPinned args hs.toWellformed f).2 ⟨hf, u, hu1, (mem_chosen u hu3).2 hu4⟩
          have := ((k3 w f).1 ((hP.groups.pinnedStay f hpin w).1 hw)).1
          rw [hx] at this
          exact (Option.some.inj this).symm
        rcases hP.only z f hz with ⟨-, h⟩ | ⟨i, -, -, h⟩
        · rw [← hin z h]; exact hz
        · exfalso
          have := hin _ h
          -- the local id of a new cluster is no old cluster
          have hxk : x ∈ (startOf args db).1.keys := by
            obtain ⟨u, hu⟩ := (hP.groups.sameFeatures f).1 ⟨_, h⟩
            obtain ⟨hu1, hu2⟩ := (k3 u f).1 hu
            rw [hx] at hu1
            cases hu1
            exact (k2 _).2 hu2
          have := hold x hxk
          omega
      · exact Or.inr ⟨rfl, fun z hz => hp ⟨z, hz⟩⟩
  · intro x hx
    refine ⟨?_, hcl x hx⟩
    obtain ⟨k, hk, e, -⟩ := (clusterPin_some_iff hs.clusterIds x true).1 hx
    obtain ⟨f, hf⟩ := (hasCluster_iff_assign hs x).1 ⟨k, hk, e⟩
    exact (hasCluster_iff_assign h1.settled x).2 ⟨f, (hcl x hx f).2 hf⟩

/-- With cluster 1 and feature 3 pinned, the refinement returns and moves others. -/
example : raised (groups [[1, 4], [2, 3], [5, 6]] ++ [.pinClusters [1] true, .pinFeatures [3] true]) (refineDemo {}) = none ∧
    ran (groups [[1, 4], [2, 3], [5, 6]] ++ [.pinClusters [1] true, .pinFeatures [3] true, refineDemo {}]) =
      [(1, 1), (4, 1), (2, 3), (3, 2), (5, 3), (6, 2)] := by decide +kernel

/-! ## C24 -/

/-- **C24.** `refine_clusters(cluster_ids=S)` moves only features of clusters in `S`, and only to clusters in `S` or to
clusters whose id is above all ids in use; every other cluster keeps exactly its features. -/
theorem refine_restricted (score : DB → Nat → Finset Nat → Nat → Clustering → Except Err (Scores σ Int)) (ch : Chance)
    (args : RefineArgs) (c : Conn DB) (db : DB) (hc : Idle c db) (hs : Settled db) (hS : args.clusterIds ≠ [])
    (hret : ((refineClusters score ch args).exec none c).2 = .ok .none) :
    ∃ db', EditOk (refineClusters score ch args) c db db' .none ∧
      (∀ f x y, assign db f = some x → assign db' f = some y → x ≠ y →
        x ∈ args.clusterIds ∧ ((y ∈ args.clusterIds ∧ hasCluster db y) ∨ ∀ z, hasCluster db z → z < y)) ∧
      (∀ x, hasCluster db x → x ∉ args.clusterIds → ∀ f, assign db' f = some x ↔ assign db f = some x) := by
  obtain ⟨db', cf1, newIds, m, h1, -, hP, h2, h3, h4⟩ := refine_ran hc hs hret
  obtain ⟨k1, k2, k3, -⟩ := start_spec args hs
  have hsel : ∀ x ∈ (startOf args db).1.keys, x ∈ args.clusterIds ∧ hasCluster db x := by
    intro x hx
    obtain ⟨e1, e2, -⟩ := (mem_refinable hs.toWellformed _ _).1 ((k2 x).1 hx)
    exact ⟨e2.resolve_left hS, e1⟩
  have hfrom : ∀ z f, (z, f) ∈ pairsOf m → ∀ x, assign db f = some x → x ∈ (startOf args db).1.keys := by
    intro z f hz x hx
    have : ∃ w, In (startOf args db).1 w f := by
      rw [← hP.groups.sameFeatures]
      rcases hP.only z f hz with ⟨-, h⟩ | ⟨i, -, -, h⟩
      · exact ⟨_, h⟩
      · exact ⟨_, h⟩
    obtain ⟨w, hw⟩ := this
    obtain ⟨hw1, hw2⟩ := (k3 w f).1 hw
    rw [hx] at hw1
    cases hw1
    exact (k2 _).2 hw2
  have hdest : ∀ f x y, assign db f = some x → assign db' f = some y → x ≠ y →
        x ∈ args.clusterIds ∧ ((y ∈ args.clusterIds ∧ hasCluster db y) ∨ ∀ z, hasCluster db z → z < y) := by
    intro f x y hx hy hne
    rw [h2 f, hx, Option.map_some, Option.some.injEq, hP.dest] at hy
    rcases hy with hy | ⟨e, -⟩
    · refine ⟨(hsel x (hfrom y f hy x hx)).1, ?_⟩
      rcases hP.only y f hy with ⟨h, -⟩ | ⟨i, -, e, -⟩
      · exact Or.inl (hsel y h)
      · right
        rintro z ⟨k, hk, rfl⟩
        have := nextClusterId_fresh db k hk
        omega
    · exact absurd e.symm hne
  refine ⟨db', h1, hdest, ?_⟩
  intro x hx hxS f
  constructor
  · intro h
    by_contra hne
    rw [h2 f] at h
    obtain ⟨y, hy, e⟩ := Option.map_eq_some_iff.1 h
    have hyx : y ≠ x := by rintro rfl; exact hne hy
    obtain ⟨-, h5⟩ := hdest f y x hy (by rw [h2 f]; exact h) hyx
    rcases h5 with h5 | h5
    · exact hxS h5.1
    · exact absurd (h5 x hx) (lt_irrefl x)
  · intro h
    rw [h2 f, h, Option.map_some, (hP.dest f x x).2 (Or.inr ⟨rfl, fun z hz => ?_⟩)]
    exact hxS (hsel x (hfrom z f hz x h)).1

/-- Only clusters 2 and 3 are refined. -/
example : ran (groups [[1, 4], [2, 3], [5, 6]] ++ [refineDemo { clusterIds := [2, 3] }]) =
    [(1, 1), (4, 1), (2, 3), (3, 2), (5, 3), (6, 2)] := by decide +kernel

/-! ## C25 -/

/-- No cluster is created or dissolved when no target, or the present number of clusters, is given. -/
theorem no_target_no_new (args : RefineArgs) {db : DB} (hs : Settled db) (ht : args.target = none ∨ args.target = some 0 ∨
      args.target = some (((refinable db args.clusterIds).length : Int) + (pinnedSelected db args.clusterIds).length)) :
    effectiveTarget (cfgOf args db) (startOf args db).1 = (startOf args db).1.length := by
  rw [effectiveTarget_eq args hs, (start_spec args hs).2.2.2.1]
  have : orDefault args.target (((refinable db args.clusterIds).length : Int) + (pinnedSelected db args.clusterIds).length) =
      ((refinable db args.clusterIds).length : Int) + (pinnedSelected db args.clusterIds).length := by
    rcases ht with h | h | h <;> simp [h, orDefault]
  simp only [this]
  split <;> omega

/-- **C25.** Without a cluster target (or with the present number of selected clusters as the target): a cluster with at least `minimum_cluster_features` features still has at least as many
afterwards; with the default minimum of 1 exactly the same clusters exist afterwards. -/
theorem refine_keeps_minimum (score : DB → Nat → Finset Nat → Nat → Clustering → Except Err (Scores σ Int)) (ch : Chance)
    (args : RefineArgs) (c : Conn DB) (db : DB) (hc : Idle c db) (hs : Settled db)
    (ht : args.target = none ∨ args.target = some 0 ∨
      args.target = some (((refinable db args.clusterIds).length : Int) + (pinnedSelected db args.clusterIds).length))
    (hret : ((refineClusters score ch args).exec none c).2 = .ok .none) :
    ∃ db', EditOk (refineClusters score ch args) c db db' .none ∧
      (∀ x, hasCluster db x → args.minFeatures ≤ db.fc.countP (fun r => r.cid = x) →
        args.minFeatures ≤ db'.fc.countP (fun r => r.cid = x)) ∧
      (∀ x, hasCluster db' x → hasCluster db x) ∧
      (args.minFeatures = 1 → ∀ x, hasCluster db x → hasCluster db' x) := by
  obtain ⟨db', cf1, newIds, m, h1, -, hP, h2, h3, h4⟩ := refine_ran hc hs hret
  obtain ⟨k1, k2, k3, k4, -⟩ := start_spec args hs
  have hnil : newIds = [] := by
    rw [hP.groups.newIds_eq, no_target_no_new args hs ht]
    split <;> simp [rangeFrom]
  have hex := (hP.exact hs (by rw [hnil]; simp)).1
  have hother : ∀ x, x ∉ (startOf args db).1.keys → ∀ f, assign db' f = some x ↔ assign db f = some x := by
    intro x hx f
    have hnp : (x, f) ∉ pairsOf m := by
      intro hp
      rcases hP.only x f hp with ⟨h, -⟩ | ⟨i, hi, -⟩
      · exact hx h
      · rw [hnil] at hi; simp at hi
    rw [h2 f]
    constructor
    · intro h
      obtain ⟨y, hy, e⟩ := Option.map_eq_some_iff.1 h
      rcases (hP.dest f y x).1 e with h | ⟨rfl, -⟩
      · exact absurd h hnp
      · exact hy
    · intro h
      rw [h, Option.map_some, (hP.dest f x x).2 (Or.inr ⟨rfl, fun z hz => ?_⟩)]
      rcases hP.only z f hz with ⟨-, h'⟩ | ⟨i, hi, -⟩
      · obtain ⟨w, hw⟩ := (hP.groups.sameFeatures f).1 ⟨z, h'⟩
        obtain ⟨hw1, hw2⟩ := (k3 w f).1 hw
        rw [h] at hw1
        cases hw1
        exact hx ((k2 _).2 hw2)
      · rw [hnil] at hi; simp at hi
  -- all refined clusters are still there
  have hkeys : ∀ x ∈ (startOf args db).1.keys, x ∈ cf1.keys := by
    have hsub : ∀ x ∈ cf1.keys, x ∈ (startOf args db).1.keys := by
      intro x hx
      rcases hP.groups.keysFrom x hx with h | h
      · exact h
      · rw [hnil] at h; simp at h
    by_cases h0 : 0 < (startOf args db).1.length
    · have hcount := hP.groups.count h0 (by have := hP.iterations; simp only [cfgOf]; omega)
      rw [no_target_no_new args hs ht, hnil] at hcount
      simp only [sub_self, Int.toNat_zero, List.length_nil, Nat.zero_min, Nat.sub_zero, Nat.add_zero] at hcount
      have hperm := (List.subperm_of_subset hP.groups.nodup hsub).perm_of_length_le (by
        rw [← Dict.length_eq_keys, ← Dict.length_eq_keys, hcount])
      exact fun x hx => hperm.mem_iff.2 hx
    · intro x hx
      have : (startOf args db).1 = [] := List.length_eq_zero_iff.1 (by omega)
      rw [this] at hx
      simp [Dict.keys] at hx
  have hmin : ∀ x, hasCluster db x → args.minFeatures ≤ db.fc.countP (fun r => r.cid = x) →
        args.minFeatures ≤ db'.fc.countP (fun r => r.cid = x) := by
    intro x hx hm
    by_cases hk : x ∈ (startOf args db).1.keys
    · obtain ⟨G, hG⟩ := (Dict.get?_isSome _ _).2 hk
      have hGc : G.card = db.fc.countP (fun r => r.cid = x) := by
        refine card_eq_count hs.toWellformed (fun f => ?_)
        have : In (startOf args db).1 x f ↔ f ∈ G := by
          unfold In; rw [hG]; simp
        rw [← this, k3]
        exact ⟨fun h => h.1, fun h => ⟨h, (k2 x).1 hk⟩⟩
      obtain ⟨G', hG', hm'⟩ := hP.groups.minimum hnil x (hkeys x hk) G hG (by rw [hGc]; exact hm)
      have hGc' : G'.card = db'.fc.countP (fun r => r.cid = x) := by
        refine card_eq_count h1.settled.toWellformed (fun f => ?_)
        have : In cf1 x f ↔ f ∈ G' := by unfold In; rw [hG']; simp
        rw [← this, h2 f]
        exact (hex x hk f).symm
      rw [← hGc']
      exact hm'
    · have : db'.fc.countP (fun r => r.cid = x) = db.fc.countP (fun r => r.cid = x) := by
        classical
        let G : Finset Nat := ((db.fc.filter (fun r => r.cid = x)).map (·.fid)).toFinset
        have hG : ∀ f, f ∈ G ↔ assign db f = some x := by
          intro f
          rw [assign_some_iff hs.toWellformed]
          simp only [G, List.mem_toFinset, List.mem_map, List.mem_filter, decide_eq_true_eq]
          constructor
          · rintro ⟨r, ⟨hr, e2⟩, e1⟩; exact ⟨r, hr, e1, e2⟩
          · rintro ⟨r, hr, e1, e2⟩; exact ⟨r, ⟨hr, e2⟩, e1⟩
        rw [← card_eq_count hs.toWellformed hG,
          ← card_eq_count h1.settled.toWellformed (fun f => (hG f).trans (hother x hk f).symm)]
      rw [this]; exact hm
  refine ⟨db', h1, hmin, ?_, ?_⟩
  · intro x hx
    obtain ⟨f, hf⟩ := (hasCluster_iff_assign h1.settled x).1 hx
    by_cases hk : x ∈ (startOf args db).1.keys
    · exact ((mem_refinable hs.toWellformed _ _).1 ((k2 x).1 hk)).1
    · exact (hasCluster_iff_assign hs x).2 ⟨f, (hother x hk f).1 hf⟩
  · intro h1' x hx
    have hpos : args.minFeatures ≤ db.fc.countP (fun r => r.cid = x) := by
      rw [h1']
      obtain ⟨k, hk, rfl⟩ := hx
      obtain ⟨r, hr, e⟩ := (hs.summaries k hk).nonempty
      exact List.countP_pos_iff.2 ⟨r, hr, by simpa using e⟩
    have := hmin x hx hpos
    rw [h1'] at this
    obtain ⟨r, hr, e⟩ := List.countP_pos_iff.1 this
    exact (hasCluster_iff_assign h1.settled x).2 ⟨r.fid, (assign_some_iff h1.settled.toWellformed _ _).2 ⟨r, hr, rfl, by
      simpa using e⟩⟩

/-- The minimum does not protect a cluster that is already below it (the code compares with `==`): with a minimum of two,
cluster 2 = {5} is emptied and disappears. -/
theorem small_cluster_can_vanish :
    raised (groups [[1, 2], [5], [3, 4, 6]]) (refineDemo { minFeatures := 2 }) = none ∧
    ran (groups [[1, 2], [5], [3, 4, 6]] ++ [refineDemo { minFeatures := 2 }]) =
      [(1, 1), (2, 1), (5, 1), (3, 3), (4, 3), (6, 3)] := by decide +kernel

/-! ## C26 -/

/-- **C26.** With a target above the number of selected pinned clusters (which are never dissolved) and below the number of
selected clusters, exactly the surplus, as far as clusters without pinned features suffice, is dissolved: `gone` are
the dissolved clusters.  All other clusters survive (for the default minimum of one feature per cluster). -/
theorem refine_reaches_target (score : DB → Nat → Finset Nat → Nat → Clustering → Except Err (Scores σ Int)) (ch : Chance)
    (args : RefineArgs) (c : Conn DB) (db : DB) (hc : Idle c db) (hs : Settled db) (t : Int)
    (ht : args.target = some t) (hlo : ((pinnedSelected db args.clusterIds).length : Int) < t)
    (hhi : t < (refinable db args.clusterIds).length + (pinnedSelected db args.clusterIds).length)
    (hret : ((refineClusters score ch args).exec none c).2 = .ok .none) :
    ∃ (db' : DB) (gone : List Int), EditOk (refineClusters score ch args) c db db' .none ∧ gone.Nodup ∧
      (∀ x ∈ gone, x ∈ dissolvable db args.clusterIds) ∧
      gone.length = min ((refinable db args.clusterIds).length + (pinnedSelected db args.clusterIds).length - t).toNat
        (dissolvable db args.clusterIds).length ∧
      (∀ x, hasCluster db' x → hasCluster db x ∧ x ∉ gone) ∧
      (args.minFeatures = 1 → ∀ x, hasCluster db' x ↔ hasCluster db x ∧ x ∉ gone) := by
  obtain ⟨db', cf1, newIds, m, h1, -, hP, h2, h3, h4⟩ := refine_ran hc hs hret
  obtain ⟨k1, k2, k3, k4, -⟩ := start_spec args hs
  set n := (refinable db args.clusterIds).length with hn
  set p := (pinnedSelected db args.clusterIds).length with hp
  have ht0 : t ≠ 0 := by omega
  have heff : effectiveTarget (cfgOf args db) (startOf args db).1 = t - p := by
    rw [effectiveTarget_eq args hs]
    simp only [ht, orDefault, if_neg ht0, ← hp]
    rw [if_neg (by omega)]
  have hn0 : 0 < (startOf args db).1.length := by rw [k4]; omega
  have hnil : newIds = [] := by
    apply List.length_eq_zero_iff.1
    rw [hP.groups.newIds_eq, rangeFrom_length, if_neg (by omega), heff, k4]
    omega
  have hex := (hP.exact hs (by rw [hnil]; simp)).1
  have hsub : ∀ x ∈ cf1.keys, x ∈ (startOf args db).1.keys := by
    intro x hx
    rcases hP.groups.keysFrom x hx with h | h
    · exact h
    · rw [hnil] at h; simp at h
  have hcount := hP.groups.count hn0 (by have := hP.iterations; simp only [cfgOf]; omega)
  rw [mem_dissolvable args hs, heff, hnil, k4] at hcount
  simp only [List.length_nil, Nat.add_zero] at hcount
  have hfl := filter_notMem_length k1 hP.groups.nodup hsub
  rw [← Dict.length_eq_keys, ← Dict.length_eq_keys, k4] at hfl
  have hle : cf1.length ≤ n := by omega
  have hdle : (dissolvable db args.clusterIds).length ≤ n := List.length_filter_le _ _
  have hnotkey : ∀ x f, x ∉ cf1.keys → x ∈ (startOf args db).1.keys → assign db' f ≠ some x := by
    intro x f hx hk h
    rw [h2 f, hex x hk f] at h
    exact hx h.key
  have hother : ∀ x, x ∉ (startOf args db).1.keys → ∀ f, assign db' f = some x ↔ assign db f = some x := by
    intro x hx f
    have hnp : (x, f) ∉ pairsOf m := by
      intro hp
      rcases hP.only x f hp with ⟨h, -⟩ | ⟨i, hi, -⟩
      · exact hx h
      · rw [hnil] at hi; simp at hi
    rw [h2 f]
    constructor
    · intro h
      obtain ⟨y, hy, e⟩ := Option.map_eq_some_iff.1 h
      rcases (hP.dest f y x).1 e with h | ⟨rfl, -⟩
      · exact absurd h hnp
      · exact hy
    · intro h
      rw [h, Option.map_some, (hP.dest f x x).2 (Or.inr ⟨rfl, fun z hz => ?_⟩)]
      rcases hP.only z f hz with ⟨-, h'⟩ | ⟨i, hi, -⟩
      · obtain ⟨w, hw⟩ := (hP.groups.sameFeatures f).1 ⟨z, h'⟩
        obtain ⟨hw1, hw2⟩ := (k3 w f).1 hw
        rw [h] at hw1
        cases hw1
        exact hx ((k2 _).2 hw2)
      · rw [hnil] at hi; simp at hi
  have hone : ∀ x, hasCluster db' x → hasCluster db x ∧ x ∉ (startOf args db).1.keys.filter (· ∉ cf1.keys) := by
    intro x hx
    obtain ⟨f, hf⟩ := (hasCluster_iff_assign h1.settled x).1 hx
    by_cases hk : x ∈ (startOf args db).1.keys
    · refine ⟨((mem_refinable hs.toWellformed _ _).1 ((k2 x).1 hk)).1, fun hg => ?_⟩
      have := (List.mem_filter.1 hg).2
      simp only [decide_eq_true_eq] at this
      exact hnotkey x f this hk hf
    · exact ⟨(hasCluster_iff_assign hs x).2 ⟨f, (hother x hk f).1 hf⟩, fun hg => hk (List.mem_filter.1 hg).1⟩
  refine ⟨db', (startOf args db).1.keys.filter (· ∉ cf1.keys), h1, k1.filter _, ?_, ?_, hone, ?_⟩
  · intro x hx
    obtain ⟨hx1, hx2⟩ := List.mem_filter.1 hx
    simp only [decide_eq_true_eq] at hx2
    refine List.mem_filter.2 ⟨(k2 x).1 hx1, ?_⟩
    simp only [decide_eq_true_eq]
    intro r hr e
    by_contra hpin
    have hpin : r.pinned = true := by simpa using hpin
    obtain ⟨e1, e2, -⟩ := (mem_refinable hs.toWellformed _ _).1 ((k2 x).1 hx1)
    refine hP.groups.pinnedKept x hx1 hx2 r.fid ?_ ?_
    · rw [mem_selectPinned args hs.toWellformed]
      exact ⟨(featurePin_some_iff hs.toWellformed _ _).2 ⟨r, hr, rfl, hpin⟩, x,
        (assign_some_iff hs.toWellformed _ _).2 ⟨r, hr, rfl, e⟩, (mem_chosen x e1).2 e2⟩
    · rw [k3]
      exact ⟨(assign_some_iff hs.toWellformed _ _).2 ⟨r, hr, rfl, e⟩, (k2 x).1 hx1⟩
  · omega
  · intro hm1 x
    refine ⟨hone x, ?_⟩
    rintro ⟨hx, hg⟩
    obtain ⟨f, hf⟩ := (hasCluster_iff_assign hs x).1 hx
    by_cases hk : x ∈ (startOf args db).1.keys
    · have hck : x ∈ cf1.keys := by
        by_contra h
        exact hg (List.mem_filter.2 ⟨hk, by simpa using h⟩)
      obtain ⟨G, hG⟩ := (Dict.get?_isSome _ _).2 hk
      have hfG : f ∈ G := by
        have : In (startOf args db).1 x f := (k3 x f).2 ⟨hf, (k2 x).1 hk⟩
        obtain ⟨G', hG', h⟩ := this
        rw [hG] at hG'
        cases hG'
        exact h
      obtain ⟨G', hG', hm'⟩ := hP.groups.minimum hnil x hck G hG (by
        simp only [cfgOf, hm1]; exact Finset.card_pos.2 ⟨f, hfG⟩)
      simp only [cfgOf, hm1] at hm'
      obtain ⟨g, hg'⟩ := Finset.card_pos.1 hm'
      refine (hasCluster_iff_assign h1.settled x).2 ⟨g, ?_⟩
      rw [h2 g, hex x hk g]
      exact ⟨G', hG', hg'⟩
    · exact (hasCluster_iff_assign h1.settled x).2 ⟨f, (hother x hk f).2 hf⟩

/-- **C26, second half.** The internal consistency error (a dissolved cluster that was not emptied, a `ValueError`) is never
raised: when the call raises `ValueError`, the scoring did, or the number of iterations was below one. -/
theorem refine_never_inconsistent (score : DB → Nat → Finset Nat → Nat → Clustering → Except Err (Scores σ Int))
    (ch : Chance) (args : RefineArgs) (c : Conn DB) (db : DB) (hc : Idle c db) (hs : Settled db)
    (hi : 1 ≤ args.iterations) (hscore : ∀ b M i cf, score db b M i cf ≠ .error .valueError) :
    ((refineClusters score ch args).exec none c).2 ≠ .error .valueError := by
  cases hp : refinePlan score ch args db with
  | ok m =>
    obtain ⟨db2, e1, -⟩ := refine_keeps_pins (refinePlan score ch args) m c db hc hs hp
    rw [show ((refineClusters score ch args).exec none c).2 = _ from e1.returns]
    simp
  | error e =>
    rw [show ((refineClusters score ch args).exec none c).2 = _ from (refine_err hc hs hp).1]
    intro he
    simp only [Except.error.injEq] at he
    subst he
    unfold refinePlan at hp
    rw [if_neg (by omega)] at hp
    simp only at hp
    rcases bind_err hp with hp | ⟨r, hr, hp⟩
    · exact refineGroups_no_valueError (start_spec args hs).1 (startDisjointed hs) (fun M i cf => hscore _ M i cf) hp
    · rcases bind_err hp with hp | ⟨_, _, hp⟩
      · obtain ⟨a, -, ha⟩ := mapM_err hp
        rcases bind_err ha with ha | ⟨_, _, ha⟩
        · have := (Dict.getE_err _ _ _ ha).1; cases this
        · cases ha
      · rcases bind_err hp with hp | ⟨_, _, hp⟩
        · have key : ∀ (saved : Clustering) (l : List Int) (k : Int) (cf : Clustering),
              remap saved l k cf ≠ .error .valueError := by
            intro saved l
            induction l with
            | nil => intro k cf h; cases h
            | cons x l ih =>
              intro k cf h
              unfold remap at h
              rcases bind_err h with h | ⟨_, _, h⟩
              · unfold Dict.delE at h
                split at h <;> cases h
              · rcases bind_err h with h | ⟨_, _, h⟩
                · have := (Dict.getE_err _ _ _ h).1; cases this
                · exact ih _ _ h
          exact key _ _ _ _ hp
        · cases hp

/-- Four clusters, target two. -/
example : raised (groups [[1], [2], [5], [3, 4, 6]]) (refineDemo { target := some 2 }) = none ∧
    ran (groups [[1], [2], [5], [3, 4, 6]] ++ [refineDemo { target := some 2 }]) =
      [(1, 2), (2, 2), (5, 2), (3, 4), (4, 4), (6, 4)] := by decide +kernel

/-- A target equal to the number of pinned clusters is taken as no target: none of the two other clusters is dissolved,
although the first could be. -/
theorem target_of_pinned_is_ignored :
    ran (groups [[1], [2], [5], [3, 4, 6]] ++ [.pinClusters [1, 2] true, .pinFeatures [3] true,
      refineDemo { target := some 2 }]) = [(1, 1), (2, 2), (5, 3), (3, 4), (4, 4), (6, 4)] := by decide +kernel

/-! ## C27 -/

/-- The first id the refinement gives to new clusters: one more than the greatest refined one. -/
def firstLocal (args : RefineArgs) (db : DB) : Int := nextLocalId (startOf args db).1

/-- **C27 (partial).** With a target above the number of selected clusters, `t - n - p` new clusters are made.  When the
refined clusters include the one with the greatest id, or the greatest id of the model is at least as far above the
greatest refined one as clusters are added, every cluster the refinement found is saved: the refined ones under
their id, the `i`-th new one under the `i`-th id above all ids in use.
Missing: the other cases, where the code loses new clusters, see `split_lost` and `split_result_lost`. -/
theorem split_saved_partial (score : DB → Nat → Finset Nat → Nat → Clustering → Except Err (Scores σ Int)) (ch : Chance)
    (args : RefineArgs) (c : Conn DB) (db : DB) (hc : Idle c db) (hs : Settled db) (t : Int)
    (ht : args.target = some t) (hne : refinable db args.clusterIds ≠ [])
    (hhi : (refinable db args.clusterIds).length + (pinnedSelected db args.clusterIds).length < t)
    (hgap : firstLocal args db = nextClusterId db ∨
      t - ((refinable db args.clusterIds).length + (pinnedSelected db args.clusterIds).length) ≤
        nextClusterId db - firstLocal args db)
    (hret : ((refineClusters score ch args).exec none c).2 = .ok .none) :
    ∃ db' found newIds, EditOk (refineClusters score ch args) c db db' .none ∧
      refineGroups (score db (batchesOf args db)) ch (cfgOf args db) (selectPinned args db) (startOf args db).1 =
        .ok (found, newIds) ∧
      (newIds.length : Int) = t - ((refinable db args.clusterIds).length + (pinnedSelected db args.clusterIds).length) ∧
      (∀ x ∈ refinable db args.clusterIds, ∀ f, assign db' f = some x ↔ ∃ G, found.get? x = some G ∧ f ∈ G) ∧
      (∀ i : Nat, i < newIds.length → (∀ z, hasCluster db z → z < nextClusterId db + i) ∧
        ∀ f, assign db' f = some (nextClusterId db + i) ↔ ∃ G, found.get? (firstLocal args db + i) = some G ∧ f ∈ G) := by
  obtain ⟨db', cf1, newIds, m, h1, hg, hP, h2, h3, h4⟩ := refine_ran hc hs hret
  obtain ⟨k1, k2, k3, k4, -⟩ := start_spec args hs
  set n := (refinable db args.clusterIds).length with hn
  set p := (pinnedSelected db args.clusterIds).length with hp
  have hn0 : 0 < n := List.length_pos_of_ne_nil hne
  have ht0 : t ≠ 0 := by omega
  have heff : effectiveTarget (cfgOf args db) (startOf args db).1 = t - p := by
    rw [effectiveTarget_eq args hs]
    simp only [ht, orDefault, if_neg ht0, ← hp]
    rw [if_neg (by omega)]
  have hlen : (newIds.length : Int) = t - (n + p) := by
    rw [hP.groups.newIds_eq, rangeFrom_length, if_neg (by omega), heff, k4]
    omega
  have hno : ∀ i, i < newIds.length →
      ¬ Lost (nextLocalId (startOf args db).1) (nextClusterId db) newIds.length i := by
    rintro i hi ⟨l1, l2⟩
    rcases hgap with h | h <;> simp only [firstLocal] at h <;> omega
  obtain ⟨e1, e2⟩ := hP.exact hs hno
  refine ⟨db', cf1, newIds, h1, hg, hlen, ?_, ?_⟩
  · intro x hx f
    rw [h2 f]
    exact e1 x ((k2 x).2 hx) f
  · intro i hi
    refine ⟨?_, fun f => ?_⟩
    · rintro z ⟨k, hk, rfl⟩
      have := nextClusterId_fresh db k hk
      omega
    · rw [h2 f]
      exact e2 i hi f

/-- **C27, the other cases.** Let the greatest id in use be `g > 0` above the greatest refined one.  Then the `i`-th new
cluster is deleted again while being saved whenever `g + i` is below the number of new clusters: no feature is
stored in it, and its features stay in the clusters they were in before the refinement. -/
theorem split_lost (score : DB → Nat → Finset Nat → Nat → Clustering → Except Err (Scores σ Int)) (ch : Chance)
    (args : RefineArgs) (c : Conn DB) (db : DB) (hc : Idle c db) (hs : Settled db)
    (hret : ((refineClusters score ch args).exec none c).2 = .ok .none) :
    ∃ db' found newIds, EditOk (refineClusters score ch args) c db db' .none ∧
      refineGroups (score db (batchesOf args db)) ch (cfgOf args db) (selectPinned args db) (startOf args db).1 =
        .ok (found, newIds) ∧
      ∀ i : Nat, 0 < nextClusterId db - firstLocal args db → nextClusterId db - firstLocal args db + i < newIds.length →
        (∀ f, assign db' f ≠ some (nextClusterId db + i)) ∧
        (∀ f G, found.get? (firstLocal args db + i) = some G → f ∈ G → assign db' f = assign db f) := by
  obtain ⟨db', cf1, newIds, m, h1, hg, hP, h2, h3, h4⟩ := refine_ran hc hs hret
  obtain ⟨k1, k2, k3, k4, -⟩ := start_spec args hs
  have hold : ∀ c ∈ (startOf args db).1.keys, c < nextLocalId (startOf args db).1 := nextLocalId_fresh _
  refine ⟨db', cf1, newIds, h1, hg, ?_⟩
  intro i hi1 hi2
  simp only [firstLocal] at hi1 hi2
  have hin : i < newIds.length := by omega
  have hL : Lost (nextLocalId (startOf args db).1) (nextClusterId db) newIds.length i := ⟨by omega, by omega⟩
  constructor
  · intro f hf
    rw [h2 f] at hf
    obtain ⟨x, hx, e⟩ := Option.map_eq_some_iff.1 hf
    rcases (hP.dest f x _).1 e with h | ⟨h, -⟩
    · exact hP.lost i hin hL f h
    · have := assign_lt_next hs hx; omega
  · intro f G hG hfG
    have hinf : In cf1 (nextLocalId (startOf args db).1 + i) f := ⟨G, hG, hfG⟩
    rw [h2 f]
    cases hx : assign db f with
    | none => rfl
    | some x =>
      rw [Option.map_some]
      congr 1
      rw [hP.dest f x x]
      refine Or.inr ⟨rfl, fun z hz => ?_⟩
      rcases hP.only z f hz with ⟨hk, h⟩ | ⟨j, hj, rfl, h⟩
      · have := hP.groups.disjointed f _ _ h hinf
        have := hold z hk
        omega
      · have := hP.groups.disjointed f _ _ h hinf
        have e : j = i := by omega
        subst e
        exact hP.lost j hj hL f hz

/-- **C27 fails.** Clusters 1 to 4, refining clusters 2 = {1, 2} and 3 = {3, 4} to four clusters: the call returns, but of the
two new clusters (the model has five clusters and should have six) one, {4}, is lost. -/
theorem split_result_lost :
    raised (groups [[5], [1, 2], [3, 4], [6]]) (refineDemo { clusterIds := [2, 3], target := some 4, iterations := 1 }) =
      none ∧
    ran (groups [[5], [1, 2], [3, 4], [6]] ++
      [refineDemo { clusterIds := [2, 3], target := some 4, iterations := 1 }]) =
      [(5, 1), (1, 2), (2, 6), (3, 3), (4, 3), (6, 4)] := by decide +kernel

/-- Refining the same clusters when they have the greatest ids works: six clusters. -/
example : ran (groups [[5], [6], [1, 2], [3, 4]] ++
      [refineDemo { clusterIds := [3, 4], target := some 4, iterations := 1 }]) =
      [(5, 1), (6, 2), (1, 3), (2, 6), (3, 4), (4, 5)] := by decide +kernel

/-! ## C28 -/

/-- A refinement whose groups are found returns. -/
theorem refine_returns_of_groups {ch : Chance} {args : RefineArgs} {c : Conn DB} {db : DB} (hc : Idle c db) (hs : Settled db)
    (hi : 1 ≤ args.iterations) {r : Clustering × List Int}
    (hr : refineGroups (exactScorer ch args db (batchesOf args db)) ch (cfgOf args db) (selectPinned args db) (startOf args db).1 = .ok r) :
    ((refineClusters (exactScorer ch args) ch args).exec none c).2 = .ok .none := by
  obtain ⟨k1, k2, k3, k4, -⟩ := start_spec args hs
  have hg := refineGroups_spec k1 (startDisjointed hs) hr
  have hnd : r.2.Nodup := by rw [hg.newIds_eq]; exact rangeFrom_nodup _ _
  obtain ⟨saved, hsv⟩ := saved_total hg.newKept
  have hsv' := saved_spec hnd hsv
  obtain ⟨cf2, hcf2⟩ := remap_total (saved := saved) r.2 (nextClusterId db) hnd hg.newKept (by
    intro x hx
    obtain ⟨h1, h2⟩ := hsv' x hx
    obtain ⟨v, hv⟩ := (Dict.get?_isSome _ _).2 h2
    rw [h1, hv]; rfl)
  have hplan : refinePlan (exactScorer ch args) ch args db = .ok (cf2.map (fun e => (e.1, Bitmap.elems e.2))) := by
    unfold refinePlan
    rw [if_neg (by omega)]
    simp only
    have e : refineGroups (exactScorer ch args db (args.groupBatches.getD (autoBatches
        (dropPinned (pinnedClusterIds db) (selectClusters args db)).1.length))) ch
        ⟨args.iterations.toNat, args.minFeatures, args.tolerance,
          some (orDefault args.target (selectClusters args db).length -
            (dropPinned (pinnedClusterIds db) (selectClusters args db)).2)⟩
        (selectPinned args db) (dropPinned (pinnedClusterIds db) (selectClusters args db)).1 = .ok r := hr
    rw [e]
    simp only [bind, Except.bind] at hsv ⊢
    rw [hsv]
    simp only
    rw [hcf2]
    rfl
  obtain ⟨db2, e1, -⟩ := refine_keeps_pins _ _ c db hc hs hplan
  exact e1.returns

/-- Refined clusters with pins are those that may not be dissolved. -/
theorem pinnedIn_nil_iff (args : RefineArgs) {db : DB} (hs : Settled db) :
    pinnedIn (startOf args db).1 (selectPinned args db) = [] ↔ dissolvable db args.clusterIds = refinable db args.clusterIds := by
  obtain ⟨k1, k2, k3, k4, -⟩ := start_spec args hs
  have h1 := mem_dissolvable args hs
  rw [show (dissolvable db args.clusterIds = refinable db args.clusterIds) ↔
    (dissolvable db args.clusterIds).length = (refinable db args.clusterIds).length from
      ⟨fun h => by rw [h], fun h => List.Sublist.eq_of_length List.filter_sublist h⟩, ← h1, ← k4, Dict.length_eq_keys]
  constructor
  · intro h; rw [h]; simp
  · intro h
    have h2 := List.Sublist.eq_of_length List.filter_sublist h
    rw [List.eq_nil_iff_forall_not_mem]
    intro x hx
    obtain ⟨f, -, hin⟩ := (mem_pinnedIn k1 _ x).1 hx
    have h3 : x ∈ (startOf args db).1.keys := hin.key
    rw [← h2, List.mem_filter] at h3
    simp only [decide_eq_true_eq] at h3
    exact h3.2 hx

/-- The number of batches of group tests for `n` refined clusters. -/
def batchCount (args : RefineArgs) (n : Nat) : Nat := args.groupBatches.getD ((n + 9) / 10)

/-- The call returns or raises `KeyError`, or it cannot succeed. -/
theorem refine_outcomes (ch : Chance) (args : RefineArgs) (c : Conn DB) (db : DB) (hc : Idle c db) (hs : Settled db)
    (hi : 1 ≤ args.iterations) :
    let n : Int := (refinable db args.clusterIds).length
    let p : Int := (pinnedSelected db args.clusterIds).length
    let can := n = 0 ∨ (n = 1 ∧ ∀ t, args.target = some t → t = 0 ∨ t = p ∨ t = p + 1) ∨
      ((∃ f, Movable db args.clusterIds f) ∧
        (∀ t, args.target = some t → t = 0 ∨ p ≤ t ∨ dissolvable db args.clusterIds ≠ refinable db args.clusterIds) ∧
        (1 ≤ args.groupTopK ∨ NoGroups db args.clusterIds args.target (batchCount args (refinable db args.clusterIds).length)))
    (((refineClusters (exactScorer ch args) ch args).exec none c).2 = .ok .none → can) ∧
    (can → ((refineClusters (exactScorer ch args) ch args).exec none c).2 = .ok .none ∨
      (((refineClusters (exactScorer ch args) ch args).exec none c).2 = .error .keyError ∧
        Idle ((refineClusters (exactScorer ch args) ch args).exec none c).1 db ∧
        (∃ t, args.target = some t ∧ t < n + p) ∧
        ¬ AllTested db args.clusterIds (batchCount args (refinable db args.clusterIds).length) args.groupTopK args.minFeatures)) := by
  obtain ⟨k1, k2, k3, k4, -⟩ := start_spec args hs
  have heff := effectiveTarget_eq args hs
  have hpins := pinnedIn_nil_iff args hs
  have hmv := movable_iff args hs
  dsimp only at heff ⊢
  set n := (refinable db args.clusterIds).length with hn
  set p := (pinnedSelected db args.clusterIds).length with hp
  have hbatches : batchesOf args db = args.groupBatches.getD ((n + 9) / 10) := by
    simp only [batchesOf, autoBatches, k4]
  have hmovable : (∃ f, Movable db args.clusterIds f) ↔ (movableOf (startOf args db).1 (selectPinned args db)).Nonempty :=
    ⟨fun ⟨f, hf⟩ => ⟨f, (hmv f).2 hf⟩, fun ⟨f, hf⟩ => ⟨f, (hmv f).1 hf⟩⟩
  have hcases : effectiveTarget (cfgOf args db) (startOf args db).1 = n ∧ (∀ t, args.target = some t → t = 0 ∨ t = p) ∨
      ∃ t, args.target = some t ∧ t ≠ 0 ∧ t ≠ p ∧ effectiveTarget (cfgOf args db) (startOf args db).1 = t - p := by
    rw [heff]
    cases htt : args.target with
    | none =>
      left
      simp only [orDefault]
      refine ⟨?_, by simp⟩
      change (if (n : Int) + p = p then (n : Int) else n + p - p) = n
      by_cases hh : (n : Int) + p = p
      · rw [if_pos hh]
      · rw [if_neg hh]; omega
    | some t =>
      by_cases h0 : t = 0
      · left
        simp only [orDefault, h0, if_true]
        refine ⟨?_, by simp⟩
        change (if (n : Int) + p = p then (n : Int) else n + p - p) = n
        by_cases hh : (n : Int) + p = p
        · rw [if_pos hh]
        · rw [if_neg hh]; omega
      · by_cases h1 : t = p
        · left
          simp only [orDefault, if_neg h0]
          exact ⟨if_pos h1, by simp [h1]⟩
        · right
          refine ⟨t, rfl, h0, h1, ?_⟩
          simp only [orDefault, if_neg h0, if_neg h1]
  have hnil : (startOf args db).1 = [] ↔ n = 0 := by rw [← List.length_eq_zero_iff, k4]
  have hiter : 1 ≤ (cfgOf args db).iterations := by show 1 ≤ args.iterations.toNat; omega
  have hnonempty : ∀ x G, (startOf args db).1.get? x = some G → G.Nonempty := by
    intro x G hG
    obtain ⟨f, hf⟩ := (hasCluster_iff_assign hs x).1 (by
      have := (k2 x).1 ((Dict.get?_isSome _ _).1 ⟨G, hG⟩)
      exact ((mem_refinable hs.toWellformed _ _).1 this).1)
    obtain ⟨G', hG', hf'⟩ := (k3 x f).2 ⟨hf, (k2 x).1 ((Dict.get?_isSome _ _).1 ⟨G, hG⟩)⟩
    rw [hG] at hG'
    cases hG'
    exact ⟨f, hf'⟩
  constructor
  · intro h
    obtain ⟨db', cf1, newIds, m, -, hg, -⟩ := refine_ran hc hs h
    by_contra hcon
    rw [not_or, not_or] at hcon
    obtain ⟨c1, c2, c3⟩ := hcon
    have hne : (startOf args db).1 ≠ [] := fun h => c1 (by rw [hnil.1 h]; rfl)
    have hnot : ¬ ((startOf args db).1.length = 1 ∧ effectiveTarget (cfgOf args db) (startOf args db).1 = 1) := by
      rintro ⟨h1, h2⟩
      apply c2
      rw [k4] at h1
      refine ⟨by omega, ?_⟩
      rcases hcases with ⟨-, h3⟩ | ⟨t, h3, -, -, h4⟩
      · intro t ht
        rcases h3 t ht with h | h
        · exact .inl h
        · exact .inr (.inl h)
      · intro t' ht'
        rw [h3] at ht'
        cases ht'
        right; right; omega
    by_cases hk : 1 ≤ args.groupTopK ∨ NoGroups db args.clusterIds args.target (batchCount args n)
    rotate_left
    · rw [not_or] at hk
      have hmm : (movableOf (startOf args db).1 (selectPinned args db)).Nonempty := by
        by_contra hmm
        refine refineGroups_fails k1 (startDisjointed hs) hne hnonempty hiter hnot
          (.inl (Finset.not_nonempty_iff_eq_empty.1 hmm)) _ hg
      refine refineGroups_unscored k1 (startDisjointed hs) hne hiter hmm hnot ?_ _ hg
      intro st hst hlen s hsc
      have e0 : args.groupTopK = 0 := by omega
      unfold exactScorer at hsc
      rw [e0] at hsc
      refine findBestMoves_zero ?_ hsc
      rw [(ch.clusterOrder_perm 0 st.cf.keys).length_eq, ← Dict.length_eq_keys, hbatches]
      intro hb
      apply hk.2
      rcases hb with hb | hb
      · exact .inl hb
      right
      have hb' : (st.cf.length : Int) < 2 * (batchCount args n : Nat) := by
        show (st.cf.length : Int) < 2 * ((args.groupBatches.getD ((n + 9) / 10) : Nat) : Int)
        omega
      rw [hlen, k4] at hb'
      refine ⟨by have := le_max_left (n : Int) (effectiveTarget (cfgOf args db) (startOf args db).1); omega, ?_⟩
      intro t ht
      have hmax := le_max_right (n : Int) (effectiveTarget (cfgOf args db) (startOf args db).1)
      rcases hcases with ⟨-, h3⟩ | ⟨t', h3, -, -, h4⟩
      · rcases h3 t ht with h | h <;> omega
      · rw [ht] at h3
        cases h3
        omega
    refine refineGroups_fails k1 (startDisjointed hs) hne hnonempty hiter hnot ?_ _ hg
    · by_cases hmm : (movableOf (startOf args db).1 (selectPinned args db)).Nonempty
      · right
        have : ¬ ∀ t, args.target = some t → t = 0 ∨ (p : Int) ≤ t ∨ dissolvable db args.clusterIds ≠ refinable db args.clusterIds :=
          fun h => c3 ⟨hmovable.2 hmm, h, hk⟩
        simp only [not_forall, not_or, ne_eq, not_not] at this
        obtain ⟨t, ht, h0, h1, h2⟩ := this
        refine ⟨?_, hpins.2 h2⟩
        rcases hcases with ⟨-, h3⟩ | ⟨t', h3, -, -, h4⟩
        · rcases h3 t ht with h | h <;> omega
        · rw [ht] at h3
          cases h3
          omega
      · exact .inl (Finset.not_nonempty_iff_eq_empty.1 hmm)
  · intro h
    have hor : (∃ r, refineGroups (exactScorer ch args db (batchesOf args db)) ch (cfgOf args db)
        (selectPinned args db) (startOf args db).1 = .ok r) ∨
        (refineGroups (exactScorer ch args db (batchesOf args db)) ch (cfgOf args db)
          (selectPinned args db) (startOf args db).1 = .error .keyError ∧
          (∃ t, args.target = some t ∧ t < (n : Int) + p) ∧
          ¬ AllTested db args.clusterIds (batchCount args n) args.groupTopK args.minFeatures) := by
      rcases h with h | ⟨h1, h2⟩ | ⟨h1, h2, hk⟩
      · rw [hnil.2 (by omega)]
        exact .inl ⟨_, rfl⟩
      · unfold refineGroups
        simp only
        have e1 : (startOf args db).1.length = 1 := by omega
        have e2 : orDefault (cfgOf args db).target ((startOf args db).1.length : Int) = 1 := by
          show effectiveTarget (cfgOf args db) (startOf args db).1 = 1
          rcases hcases with ⟨h3, -⟩ | ⟨t, h3, h4, h5, h6⟩
          · omega
          · rcases h2 t h3 with h | h | h
            · exact absurd h h4
            · exact absurd h h5
            · omega
        rw [if_neg (by omega), if_pos ⟨e1, e2⟩]
        exact .inl ⟨_, rfl⟩
      · have hmm := hmovable.1 h1
        set N := max n (effectiveTarget (cfgOf args db) (startOf args db).1).toNat with hNdef
        have hN1 : n ≤ N := le_max_left _ _
        have hN2 : (effectiveTarget (cfgOf args db) (startOf args db).1).toNat ≤ N := le_max_right _ _
        have hN3 : N = n ∨ N = (effectiveTarget (cfgOf args db) (startOf args db).1).toNat := max_choice _ _
        have hgood := exactScorer_good ch args db (batchesOf args db) (featuresOf (startOf args db).1) _
          (pinsOk_initial k1 (startDisjointed hs) (selectPinned args db)).1 hmm N (by
            rw [hbatches]
            rcases hk with hk | hk | ⟨hk1, hk2⟩
            · exact .inl hk
            · exact .inr (.inl hk)
            · right; right
              show N < 2 * batchCount args n
              rcases hN3 with e | e
              · rw [e]; exact hk1
              · rcases hcases with ⟨h3, -⟩ | ⟨t, h3, -, -, h4⟩
                · omega
                · have := hk2 t h3
                  omega)
        have hsize : ∀ x G, (startOf args db).1.get? x = some G → G.card = db.fc.countP (fun r => r.cid = x) := by
          intro x G hG
          refine card_eq_count hs.toWellformed (fun f => ?_)
          have hx := (k2 x).1 ((Dict.get?_isSome _ _).1 ⟨G, hG⟩)
          constructor
          · intro hf; exact ((k3 x f).1 ⟨G, hG, hf⟩).1
          · intro hf
            obtain ⟨G', hG', hf'⟩ := (k3 x f).2 ⟨hf, hx⟩
            rw [hG] at hG'
            cases hG'
            exact hf'
        rcases refineGroups_total (ch := ch) (cfg := cfgOf args db) k1 (startDisjointed hs) hgood ⟨by omega, by omega⟩ (by
            intro gone st st' hR hS
            have hl := filter_notMem_length hS.nodup hR.goneNodup hR.goneKeys
            have hlen : st'.cf.length ≤ st.cf.length := by
              rw [Dict.length_eq_keys, hR.keys, Dict.length_eq_keys st.cf]; omega
            refine Or.imp_right (Or.imp (by omega) ?_)
            rintro ⟨a1, a2, a3⟩
            refine ⟨a1, a2, fun x G hG => ?_⟩
            have hx : x ∈ st'.cf.keys := (Dict.get?_isSome _ _).1 ⟨G, hG⟩
            rw [hR.keys, List.mem_filter] at hx
            obtain ⟨G0, hG0⟩ := (Dict.get?_isSome _ _).2 hx.1
            obtain ⟨G', hG', hm'⟩ := hR.minimum x (by simpa using hx.2) G0 hG0 (a3 x G0 hG0)
            rw [hG] at hG'
            cases hG'
            exact hm') (.inl hmm) (by
            intro hne
            have : 0 < (startOf args db).1.length := List.length_pos_of_ne_nil hne
            rcases hcases with ⟨h3, -⟩ | ⟨t, h3, h4, h5, h6⟩
            · left; omega
            · rcases h2 t h3 with h | h | h
              · exact absurd h h4
              · left; omega
              · exact .inr (fun h' => h (hpins.1 h'))) with hr | ⟨hr, hlt, hall⟩
        · exact .inl hr
        · refine .inr ⟨hr, ?_, ?_⟩
          · rcases hcases with ⟨h3, -⟩ | ⟨t, h3, h4, h5, h6⟩
            · omega
            · exact ⟨t, h3, by omega⟩
          · intro htest
            apply hall
            rw [hbatches, k4]
            rcases htest with h | h | ⟨a1, a2, a3⟩
            · exact .inl h
            · exact .inr (.inl h)
            · exact .inr (.inr ⟨a1, a2, fun x G hG => by
                rw [hsize x G hG]
                exact a3 x ((k2 x).1 ((Dict.get?_isSome _ _).1 ⟨G, hG⟩))⟩)
    rcases hor with ⟨r, hr⟩ | ⟨hr, h1, h2⟩
    · exact .inl (refine_returns_of_groups hc hs hi hr)
    · have hplan : refinePlan (exactScorer ch args) ch args db = .error .keyError := by
        unfold refinePlan
        rw [if_neg (by omega)]
        simp only
        have e : refineGroups (exactScorer ch args db (args.groupBatches.getD (autoBatches
            (dropPinned (pinnedClusterIds db) (selectClusters args db)).1.length))) ch
            ⟨args.iterations.toNat, args.minFeatures, args.tolerance,
              some (orDefault args.target (selectClusters args db).length -
                (dropPinned (pinnedClusterIds db) (selectClusters args db)).2)⟩
            (selectPinned args db) (dropPinned (pinnedClusterIds db) (selectClusters args db)).1 = .error .keyError := hr
        rw [e]
        rfl
      obtain ⟨e1, -, e3⟩ := refine_err hc hs hplan
      exact .inr ⟨e1, e3 rfl, h1, h2⟩

/-- **C28 (partial).** When `refine_clusters` returns normally, exactly; with the code's scoring (in exact arithmetic), whatever
the draws, for `iterations ≥ 1`, and, if clusters are to be dissolved, when every cluster is sure to be tested (`AllTested`; for
the default options: up to 20 clusters).
Let `n` clusters be refined and `p` selected ones be pinned.  It returns if and only if there is nothing to do, or some
feature can move, the target is not below `p` while no refined cluster has a pinned feature, and group tests, if there are any,
keep at least one candidate (`group_test_top_k ≥ 1`).
Missing: with more batches a cluster may stay untested, which fails or not depending on the draws (`refine_untested_partial`,
`refine_untested_cluster_fails`). -/
theorem refine_returns_iff_partial (ch : Chance) (args : RefineArgs) (c : Conn DB) (db : DB) (hc : Idle c db) (hs : Settled db)
    (hi : 1 ≤ args.iterations)
    (hb : ∀ t, args.target = some t →
      t < (refinable db args.clusterIds).length + (pinnedSelected db args.clusterIds).length →
      AllTested db args.clusterIds (args.groupBatches.getD (((refinable db args.clusterIds).length + 9) / 10)) args.groupTopK
        args.minFeatures) :
    ((refineClusters (exactScorer ch args) ch args).exec none c).2 = .ok .none ↔
      let n : Int := (refinable db args.clusterIds).length
      let p : Int := (pinnedSelected db args.clusterIds).length
      n = 0 ∨ (n = 1 ∧ ∀ t, args.target = some t → t = 0 ∨ t = p ∨ t = p + 1) ∨
      ((∃ f, Movable db args.clusterIds f) ∧
        (∀ t, args.target = some t → t = 0 ∨ p ≤ t ∨ dissolvable db args.clusterIds ≠ refinable db args.clusterIds) ∧
        (1 ≤ args.groupTopK ∨ NoGroups db args.clusterIds args.target
          (args.groupBatches.getD (((refinable db args.clusterIds).length + 9) / 10)))) := by
  obtain ⟨h1, h2⟩ := refine_outcomes ch args c db hc hs hi
  refine ⟨h1, fun h => (h2 h).resolve_right ?_⟩
  rintro ⟨-, -, ⟨t, ht, hlt⟩, hno⟩
  exact hno (hb t ht hlt)

/-- **C28 (partial).** In the remaining cases: when some feature can move and the target is not below the number of pinned
clusters, the call either returns or raises `KeyError` and leaves the model as it was; the latter only when clusters are to be
dissolved and a cluster may stay untested. -/
theorem refine_untested_partial (ch : Chance) (args : RefineArgs) (c : Conn DB) (db : DB) (hc : Idle c db) (hs : Settled db)
    (hi : 1 ≤ args.iterations)
    (hk : 1 ≤ args.groupTopK ∨ NoGroups db args.clusterIds args.target
      (args.groupBatches.getD (((refinable db args.clusterIds).length + 9) / 10)))
    (hm : ∃ f, Movable db args.clusterIds f)
    (ht : ∀ t, args.target = some t → t = 0 ∨ ((pinnedSelected db args.clusterIds).length : Int) ≤ t) :
    ((refineClusters (exactScorer ch args) ch args).exec none c).2 = .ok .none ∨
    (((refineClusters (exactScorer ch args) ch args).exec none c).2 = .error .keyError ∧
      Idle ((refineClusters (exactScorer ch args) ch args).exec none c).1 db ∧
      (∃ t, args.target = some t ∧ t < (refinable db args.clusterIds).length + (pinnedSelected db args.clusterIds).length) ∧
      ¬ AllTested db args.clusterIds (args.groupBatches.getD (((refinable db args.clusterIds).length + 9) / 10)) args.groupTopK
        args.minFeatures) :=
  (refine_outcomes ch args c db hc hs hi).2 (.inr (.inr ⟨hm, fun t h => (ht t h).imp_right .inl, hk⟩))

/-- The useful direction of `refine_returns_iff_partial`. -/
theorem refine_returns_partial (ch : Chance) (args : RefineArgs) (c : Conn DB) (db : DB) (hc : Idle c db) (hs : Settled db)
    (hi : 1 ≤ args.iterations) (hk : 1 ≤ args.groupTopK)
    (hm : (∃ f, Movable db args.clusterIds f) ∨ refinable db args.clusterIds = [])
    (ht : ∀ t, args.target = some t → t = 0 ∨ ((pinnedSelected db args.clusterIds).length : Int) < t)
    (hb : ∀ t, args.target = some t →
      t < (refinable db args.clusterIds).length + (pinnedSelected db args.clusterIds).length →
      args.groupBatches.getD (((refinable db args.clusterIds).length + 9) / 10) ≤ 1) :
    ((refineClusters (exactScorer ch args) ch args).exec none c).2 = .ok .none := by
  refine (refine_returns_iff_partial ch args c db hc hs hi (fun t h1 h2 => .inl (hb t h1 h2))).2 ?_
  rcases hm with hm | hm
  · refine .inr (.inr ⟨hm, fun t h => ?_, .inl hk⟩)
    rcases ht t h with h | h
    · exact .inl h
    · exact .inr (.inl h.le)
  · left; rw [hm]; rfl

/-- A target below the number of pinned clusters, with and without a pinned feature in a refined cluster. -/
example : raised (groups [[1], [2], [5], [3, 4, 6]] ++ [.pinClusters [1, 2] true, .pinFeatures [3] true]) (refineDemo { target := some 1 }) = none ∧
    raised (groups [[1], [2], [5], [3, 4, 6]] ++ [.pinClusters [1, 2] true]) (refineDemo { target := some 2 }) = none ∧
    raised (groups [[1], [2], [5], [3, 4, 6]] ++ [.pinClusters [1, 2] true]) (refineDemo { target := some 1 }) ≠ none := by decide +kernel

/-- Every batch kept: six clusters are merged into two; no candidates kept, without group tests: fine. -/
example : raised (groups [[1], [2], [5], [3], [4], [6]]) (refineDemo { groupTopK := 2, groupBatches := some 2, target := some 2 }) = none ∧
    raised (groups [[1, 2], [3, 4]]) (refineDemo { groupTopK := 0, groupBatches := some 2 }) = none ∧
    raised (groups [[1, 2], [3, 4]]) (refineDemo { groupTopK := 0, groupBatches := some 2, target := some 4 }) ≠ none := by
  decide +kernel

/-- **C28 fails** when every feature is pinned: `ZeroDivisionError`. -/
theorem refine_all_pinned_fails :
    raised (groups [[1, 2], [3, 4]] ++ [.pinFeatures [1, 2, 3, 4] true]) (refineDemo {}) = some .zeroDivision := by
  decide +kernel

/-- **C28 fails** when the target is below the number of pinned clusters: `IndexError`. -/
theorem refine_target_below_pinned_fails :
    raised (groups [[1], [2], [5], [3, 4, 6]] ++ [.pinClusters [1, 2] true]) (refineDemo { target := some 1 }) =
      some .indexError := by decide +kernel

/-- **C28 fails** when group testing leaves clusters untested and clusters are to be dissolved: `KeyError`. -/
theorem refine_untested_cluster_fails :
    raised (groups [[1], [2], [5], [3], [4], [6]])
      (refineDemo { groupTopK := 1, groupBatches := some 3, target := some 2 }) = some .keyError := by decide +kernel

/-- **C28 fails** with `group_test_top_k=0`: `KeyError`. -/
theorem refine_top_k_zero_fails :
    raised (groups [[1, 2], [3, 4]]) (refineDemo { groupTopK := 0, groupBatches := some 1 }) = some .keyError := by
  decide +kernel

end Hyperreal.Props
