import Verif.Lemmas.Greedy
import Verif.Props.Refine
import Verif.Lemmas.Query

/-!
# What a refinement does in its rounds (C67)

`refineClusters (exactScorer ch args) ch args` is `Index.refine_clusters(...)` with the code's scores in exact arithmetic; `ch`
are the outcomes of all random draws.  The vocabulary is in `Spec/Greedy.lean`.
-/

namespace Hyperreal.Props
open Spec Atomic DB

/-! ## C67 -/

theorem placement_start (args : RefineArgs) {db : DB} (hs : Settled db) :
    placed (startOf args db).1 = placement db args.clusterIds := by
  obtain ⟨k1, k2, k3, k4, -⟩ := start_spec args hs
  have hm : (placed (startOf args db).1).members = (placement db args.clusterIds).members := by
    funext x
    ext f
    rw [mem_placed, k3]
    simp only [placement]
    split
    · next h => rw [List.mem_toFinset, mem_featuresIn hs.toWellformed]; tauto
    · next h => simp [h]
  have hc : (placed (startOf args db).1).clusters = (placement db args.clusterIds).clusters := by
    ext x
    simp only [placed, placement, List.mem_toFinset]
    exact k2 x
  cases h1 : placed (startOf args db).1
  cases h2 : placement db args.clusterIds
  rw [h1, h2] at hm hc
  simp only at hm hc
  rw [hm, hc]

theorem fixed_start (args : RefineArgs) {db : DB} (hs : Settled db) (x : Int) :
    x ∈ pinnedIn (startOf args db).1 (selectPinned args db) ↔
      x ∈ refinable db args.clusterIds ∧ ∃ f, assign db f = some x ∧ featurePin db f = some true := by
  obtain ⟨k1, k2, k3, k4, -⟩ := start_spec args hs
  rw [mem_pinnedIn k1]
  constructor
  · rintro ⟨f, hf, hin⟩
    obtain ⟨h1, h2⟩ := (k3 x f).1 hin
    exact ⟨h2, f, h1, ((mem_selectPinned args hs.toWellformed f).1 hf).1⟩
  · rintro ⟨hx, f, h1, h2⟩
    refine ⟨f, (mem_selectPinned args hs.toWellformed f).2 ⟨h2, x, h1, ?_⟩, (k3 x f).2 ⟨h1, hx⟩⟩
    obtain ⟨h3, h4, -⟩ := (mem_refinable hs.toWellformed _ _).1 hx
    exact (mem_chosen x h3).2 h4

/-- **C67.** What a call of `refine_clusters` that returned did, whatever its parameters and the draws.  Let `n` clusters be
refined (selected and not pinned) and `pn` selected ones be pinned, and `e` the number of refined clusters asked for.
First `e - n` new clusters are split off the largest ones.  Then come the rounds of the course described in
`Spec/Greedy.lean`, starting at the stored placement, with the documents of the probe query only, and the last one is
stored: the refined clusters under their ids, new ones under the next free ids, except for those lost (C27). -/
theorem refine_is_greedy (ch : Chance) (args : RefineArgs) (c : Conn DB) (db : DB) (hc : Idle c db) (hs : Settled db)
    (n pn : Nat) (t e : Int) (hn : n = (refinable db args.clusterIds).length) (hpn : pn = (pinnedSelected db args.clusterIds).length)
    (ht : t = if args.target = none ∨ args.target = some 0 then (n : Int) + pn else args.target.getD 0)
    (he : e = if t = pn then (n : Int) else t - pn) (hwork : ¬ (n = 0 ∨ n = 1 ∧ e = 1)) (hk : 1 ≤ args.groupTopK)
    (hret : ((refineClusters (exactScorer ch args) ch args).exec none c).2 = .ok .none) :
    ∃ (db' : DB) (movable pinned : Finset Nat) (fixed : Finset Int) (new : Int) (q : Nat → Placement) (k : Nat) (p : Nat → Placement)
      (tested : Nat → Nat → Finset Int) (gone : Nat → Finset Int) (wants : Nat → Finset Nat),
      EditOk (refineClusters (exactScorer ch args) ch args) c db db' .none ∧
      (∀ f, f ∈ movable ↔ Movable db args.clusterIds f) ∧ movable.Nonempty ∧
      (∀ f x, x ∈ refinable db args.clusterIds → assign db f = some x → (f ∈ pinned ↔ featurePin db f = some true)) ∧
      (∀ x, x ∈ fixed ↔ x ∈ refinable db args.clusterIds ∧ ∃ f, assign db f = some x ∧ featurePin db f = some true) ∧
      -- the new clusters
      (∀ x ∈ refinable db args.clusterIds, x < new) ∧ new - 1 ∈ refinable db args.clusterIds ∧
      q 0 = placement db args.clusterIds ∧
      (∀ j : Nat, j < (e - n).toNat → Split pinned (ch.coin j) (new + j) (q j) (q (j + 1))) ∧
      -- the rounds
      p 0 = q (e - n).toNat ∧ 1 ≤ k ∧
      (let d := ((n : Int) - e).toNat
       let r := max 1 (args.iterations.toNat - 1)
       Course (seen db.docsOf args.probe) movable fixed args.minFeatures ((d + r - 1) / r)
         (args.groupBatches.getD ((n + 9) / 10)) args.groupTopK args.tolerance ch.accept args.iterations.toNat d k p tested gone wants) ∧
      -- what is stored
      (∀ f, (∀ x ∈ refinable db args.clusterIds, assign db f ≠ some x) → assign db' f = assign db f) ∧
      (∀ f x, x ∈ refinable db args.clusterIds → assign db f = some x → ∃ y ∈ (p k).clusters, f ∈ (p k).members y ∧
        (y < new → assign db' f = some y) ∧
        (new ≤ y → assign db' f =
          if new < nextClusterId db ∧ (nextClusterId db - new) + (y - new) < (e - n).toNat then some x
          else some (nextClusterId db + (y - new)))) := by
  obtain ⟨db', cf1, newIds, m, h1, hg, hP, h2, h3, h4⟩ := refine_ran hc hs hret
  obtain ⟨k1, k2, k3, k4, -⟩ := start_spec args hs
  have heff := effectiveTarget_eq args hs
  have hee : effectiveTarget (cfgOf args db) (startOf args db).1 = e := by
    rw [heff, he, ht, hn, hpn]
    have : orDefault args.target (((refinable db args.clusterIds).length : Int) + (pinnedSelected db args.clusterIds).length) =
        if args.target = none ∨ args.target = some 0 then
          (((refinable db args.clusterIds).length : Int) + (pinnedSelected db args.clusterIds).length) else args.target.getD 0 := by
      cases args.target with
      | none => simp [orDefault]
      | some v => simp [orDefault]
    dsimp only
    rw [this]
  have hln : (startOf args db).1.length = n := by rw [k4, hn]
  have hn0 : n ≠ 0 := fun h => hwork (Or.inl h)
  have hnz : (startOf args db).1 ≠ [] := by
    intro h; rw [h] at hln; exact hn0 hln.symm
  have hne : ∀ x ∈ (startOf args db).1.keys, ∃ f, In (startOf args db).1 x f := by
    intro x hx
    have hxr := (k2 x).1 hx
    obtain ⟨hh, -⟩ := (mem_refinable hs.toWellformed _ _).1 hxr
    obtain ⟨f, hf⟩ := (hasCluster_iff_assign hs x).1 hh
    exact ⟨f, (k3 x f).2 ⟨hf, hxr⟩⟩
  have hb : batchesOf args db = args.groupBatches.getD ((n + 9) / 10) := by
    simp only [batchesOf, autoBatches, hln]
  have hit : 1 ≤ (cfgOf args db).iterations := by
    have := hP.iterations
    show 1 ≤ args.iterations.toNat
    omega
  obtain ⟨hmv, q, k, p, tested, gone, wants, c1, c2, c3, c4, c5, c6⟩ := groups_course k1 (startDisjointed hs) hne hk hit
    (by rw [hee, hln]; exact hwork) hg
  rw [hee, hln] at c2 c3 c6
  rw [hb] at c6
  have hnl : newIds.length = (e - n).toNat := by
    rw [hP.groups.newIds_eq, rangeFrom_length, hln, if_neg hn0, hee]
  obtain ⟨z, hz1, hz2⟩ := nextLocalId_mem hnz
  refine ⟨db', movableOf (startOf args db).1 (selectPinned args db), selectPinned args db,
    (pinnedIn (startOf args db).1 (selectPinned args db)).toFinset, nextLocalId (startOf args db).1, q, k, p, tested, gone, wants,
    h1, movable_iff args hs, hmv, ?_, ?_, ?_, ?_, ?_, c2, c3, c5, c6, ?_, ?_⟩
  · intro f x hx hf
    rw [mem_selectPinned args hs.toWellformed]
    refine ⟨fun h => h.1, fun h => ⟨h, x, hf, ?_⟩⟩
    obtain ⟨h3, h4, -⟩ := (mem_refinable hs.toWellformed _ _).1 hx
    exact (mem_chosen x h3).2 h4
  · intro x
    rw [List.mem_toFinset, fixed_start args hs]
  · intro x hx
    exact nextLocalId_fresh _ x ((k2 x).2 hx)
  · rw [hz2, Int.add_sub_cancel]; exact (k2 z).1 hz1
  · rw [c1, placement_start args hs]
  · intro f hf
    rw [h2 f]
    cases hx : assign db f with
    | none => rfl
    | some x =>
      rw [Option.map_some]
      congr 1
      rw [hP.dest f x x]
      refine Or.inr ⟨rfl, fun y hy => ?_⟩
      have : ∃ y, In cf1 y f := by
        rcases hP.only y f hy with ⟨-, h⟩ | ⟨j, -, -, h⟩
        · exact ⟨_, h⟩
        · exact ⟨_, h⟩
      obtain ⟨w, hw⟩ := (hP.groups.sameFeatures f).1 this
      obtain ⟨w1, w2⟩ := (k3 w f).1 hw
      exact hf w w2 w1
  · intro f x hx hf
    obtain ⟨y, hy⟩ := (hP.groups.sameFeatures f).2 ⟨x, (k3 x f).2 ⟨hf, hx⟩⟩
    refine ⟨y, ?_, ?_, ?_, ?_⟩
    · rw [c4]; simp only [placed, List.mem_toFinset]; exact hy.key
    · rw [c4, mem_placed]; exact hy
    · intro hlt
      have hyk : y ∈ (startOf args db).1.keys := by
        rcases hP.groups.keysFrom y hy.key with h | h
        · exact h
        · rw [hP.groups.newIds_eq] at h
          have := (mem_rangeFrom.1 h).1
          omega
      rw [h2 f, hf, Option.map_some, (hP.dest f x y).2 (Or.inl (hP.old y f hyk hy))]
    · intro hge
      have hyn : y ∈ newIds := by
        rcases hP.groups.keysFrom y hy.key with h | h
        · have := nextLocalId_fresh _ y h; omega
        · exact h
      have hlt : (y - nextLocalId (startOf args db).1).toNat < newIds.length := by
        have h := hyn
        rw [hP.groups.newIds_eq] at h
        rw [hP.groups.newIds_eq, rangeFrom_length]
        have := mem_rangeFrom.1 h
        omega
      set i := (y - nextLocalId (startOf args db).1).toNat with hi
      have hiy : nextLocalId (startOf args db).1 + (i : Int) = y := by omega
      have hyi : y - nextLocalId (startOf args db).1 = (i : Int) := by omega
      have hLost : (nextLocalId (startOf args db).1 < nextClusterId db ∧
          nextClusterId db - nextLocalId (startOf args db).1 + (y - nextLocalId (startOf args db).1) < ((e - n).toNat : Int)) ↔
          Lost (nextLocalId (startOf args db).1) (nextClusterId db) newIds.length i := by
        rw [hyi, hnl]; rfl
      rw [h2 f, hf, Option.map_some]
      by_cases hl : Lost (nextLocalId (startOf args db).1) (nextClusterId db) newIds.length i
      · rw [if_pos (hLost.2 hl)]
        congr 1
        rw [hP.dest f x x]
        refine Or.inr ⟨rfl, fun z hz => ?_⟩
        rcases hP.only z f hz with ⟨hk, h⟩ | ⟨j, hj, rfl, h⟩
        · have := hP.groups.disjointed f _ _ h hy
          have := nextLocalId_fresh _ z hk
          omega
        · have := hP.groups.disjointed f _ _ h hy
          have e : j = i := by omega
          subst e
          exact hP.lost _ hlt hl f hz
      · rw [if_neg (fun h => hl (hLost.1 h)), hyi]
        congr 1
        rw [hP.dest f x _]
        exact Or.inl ((hP.kept i hlt hl f).2 (by rw [hiy]; exact hy))

/-! Consequences -/

theorem bestAmong_unique {docs : Nat → Bitmap} {p : Placement} {T : Finset Int} {f : Nat} {x y : Int} (hx : BestAmong docs p T f x)
    (hy : BestAmong docs p T f y) : x = y := by
  obtain ⟨h1, s, h2, h3⟩ := hx
  obtain ⟨h4, t, h5, h6⟩ := hy
  rcases h3 y h4 t h5 with h | ⟨h, h'⟩ <;> rcases h6 x h1 s h2 with g | ⟨g, g'⟩
  · exact absurd h (not_lt.2 g.le)
  · exact absurd h (by rw [g]; exact lt_irrefl _)
  · exact absurd g (by rw [h]; exact lt_irrefl _)
  · exact le_antisymm g' h'

/-- Without a target the number of refined clusters asked for is the number there are. -/
theorem no_target {args : RefineArgs} {n pn : Nat} (h : args.target = none) :
    (if (if args.target = none ∨ args.target = some 0 then (n : Int) + pn else args.target.getD 0) = pn then (n : Int)
      else (if args.target = none ∨ args.target = some 0 then (n : Int) + pn else args.target.getD 0) - pn) = n := by
  rw [h, if_pos (Or.inl rfl)]
  split <;> omega

/-- Nothing to do: no cluster is refined, or only one and no other number of clusters is asked for. -/
theorem refine_nothing_to_do (ch : Chance) (args : RefineArgs) (c : Conn DB) (db : DB) (hc : Idle c db) (hs : Settled db)
    (n pn : Nat) (t e : Int) (hn : n = (refinable db args.clusterIds).length) (hpn : pn = (pinnedSelected db args.clusterIds).length)
    (ht : t = if args.target = none ∨ args.target = some 0 then (n : Int) + pn else args.target.getD 0)
    (he : e = if t = pn then (n : Int) else t - pn) (hwork : n = 0 ∨ n = 1 ∧ e = 1)
    (hret : ((refineClusters (exactScorer ch args) ch args).exec none c).2 = .ok .none) :
    ∃ db', EditOk (refineClusters (exactScorer ch args) ch args) c db db' .none ∧ ∀ f, assign db' f = assign db f := by
  obtain ⟨db', cf1, newIds, m, h1, hg, hP, h2, h3, h4⟩ := refine_ran hc hs hret
  obtain ⟨k1, k2, k3, k4, -⟩ := start_spec args hs
  have heff := effectiveTarget_eq args hs
  have hee : effectiveTarget (cfgOf args db) (startOf args db).1 = e := by
    rw [heff, he, ht, hn, hpn]
    have : orDefault args.target (((refinable db args.clusterIds).length : Int) + (pinnedSelected db args.clusterIds).length) =
        if args.target = none ∨ args.target = some 0 then
          (((refinable db args.clusterIds).length : Int) + (pinnedSelected db args.clusterIds).length) else args.target.getD 0 := by
      cases args.target with
      | none => simp [orDefault]
      | some v => simp [orDefault]
    dsimp only
    rw [this]
  have hln : (startOf args db).1.length = n := by rw [k4, hn]
  refine ⟨db', h1, fun f => ?_⟩
  have hcf : cf1 = (startOf args db).1 := by
    unfold refineGroups at hg
    simp only at hg
    by_cases h0 : (startOf args db).1.length = 0
    · rw [if_pos h0] at hg
      simp only [pure, Except.pure, Except.ok.injEq, Prod.mk.injEq] at hg
      exact hg.1.symm
    · rw [if_neg h0] at hg
      have : (startOf args db).1.length = 1 ∧ effectiveTarget (cfgOf args db) (startOf args db).1 = 1 := by
        rw [hee, hln]
        rcases hwork with h | h
        · exact absurd (hln.trans h) h0
        · exact h
      rw [if_pos (by exact this)] at hg
      simp only [pure, Except.pure, Except.ok.injEq, Prod.mk.injEq] at hg
      exact hg.1.symm
  rw [h2 f]
  cases hx : assign db f with
  | none => rfl
  | some x =>
    rw [Option.map_some]
    congr 1
    rw [hP.dest f x x]
    by_cases hp : ∃ y, (y, f) ∈ pairsOf m
    · obtain ⟨y, hy⟩ := hp
      left
      rcases hP.only y f hy with ⟨hk, h⟩ | ⟨j, hj, rfl, h⟩
      · rw [hcf] at h
        have := ((k3 y f).1 h).1
        rw [hx] at this
        cases this
        exact hy
      · rw [hcf] at h
        have h5 := ((k3 _ f).1 h)
        have := nextLocalId_fresh _ _ ((k2 _).2 h5.2)
        omega
    · right
      exact ⟨rfl, fun y hy => hp ⟨y, hy⟩⟩

/-- A placement in which all features that may move are in their best clusters. -/
def Stable (docs : Nat → Bitmap) (movable : Finset Nat) (p : Placement) : Prop :=
  ∀ f ∈ movable, ∀ x, f ∈ p.members x → BestAmong docs p (p.clusters.filter (fun z => (p.members z).Nonempty)) f x

/-- A round that dissolves nothing, with all clusters tested. -/
theorem round_best {docs : Nat → Bitmap} {movable : Finset Nat} {fixed : Finset Int} {minF : Nat} {accept : Nat → Bool}
    {p q : Placement} {tested : Nat → Finset Int} {gone : Finset Int} {wants : Finset Nat}
    (h : Round docs movable fixed minF 0 accept p q tested gone wants)
    (ht : ∀ f ∈ movable, ∀ c, c ∈ tested f ↔ c ∈ p.clusters ∧ (p.members c).Nonempty) :
    gone = ∅ ∧ ∀ f ∈ movable, tested f = p.clusters.filter (fun z => (p.members z).Nonempty) := by
  refine ⟨?_, fun f hf => ?_⟩
  · have := h.goneCount
    simpa using this
  · ext c
    rw [ht f hf c, Finset.mem_filter]

theorem round_stable {docs : Nat → Bitmap} {movable : Finset Nat} {fixed : Finset Int} {minF : Nat} {accept : Nat → Bool}
    {p q : Placement} {tested : Nat → Finset Int} {gone : Finset Int} {wants : Finset Nat}
    (h : Round docs movable fixed minF 0 accept p q tested gone wants)
    (ht : ∀ f ∈ movable, ∀ c, c ∈ tested f ↔ c ∈ p.clusters ∧ (p.members c).Nonempty)
    (hone : ∀ f x y, f ∈ p.members x → f ∈ p.members y → x = y) (hm : ∀ f ∈ movable, ∃ x, f ∈ p.members x)
    (hst : Stable docs movable p) : q = p := by
  obtain ⟨hg, hte⟩ := round_best h ht
  have hkeep : ∀ f ∈ movable, ∀ x, f ∈ p.members x → f ∈ q.members x := by
    intro f hf x hx
    by_cases hw : f ∈ wants
    · obtain ⟨y, h1, h2, -⟩ := h.moves f hw x (by rw [hg]; simp) hx
      rw [hte f hf] at h1
      exact absurd (bestAmong_unique h1 (hst f hf x hx)) h2
    · exact (h.stays f hf hw x hx).1
  have hc : q.clusters = p.clusters := by rw [h.clusters, hg]; simp
  have hmem : q.members = p.members := by
    funext x
    ext f
    by_cases hf : f ∈ movable
    · constructor
      · intro hx
        obtain ⟨y, hy⟩ := hm f hf
        have := h.single f x y hx (hkeep f hf y hy)
        rw [this]; exact hy
      · exact hkeep f hf x
    · exact h.others f hf x
  cases q; cases p
  simp only at hc hmem
  rw [hc, hmem]

theorem placement_single {db : DB} (hs : Settled db) (S : List Int) (f : Nat) (x : Int) :
    f ∈ (placement db S).members x ↔ x ∈ refinable db S ∧ assign db f = some x := by
  simp only [placement]
  split
  · next h => rw [List.mem_toFinset, mem_featuresIn hs.toWellformed]; tauto
  · next h => simp [h]

/-- **C67, a clustering that cannot be improved stays.** When every feature that may move is in its best cluster, a refinement without a
target and without group testing leaves all features where they are, whatever the other parameters and the draws. -/
theorem refine_keeps_stable (ch : Chance) (args : RefineArgs) (c : Conn DB) (db : DB) (hc : Idle c db) (hs : Settled db)
    (htarget : args.target = none) (hk : 1 ≤ args.groupTopK)
    (hb : args.groupBatches.getD (((refinable db args.clusterIds).length + 9) / 10) ≤ 1 ∨
      (refinable db args.clusterIds).length < 2 * args.groupBatches.getD (((refinable db args.clusterIds).length + 9) / 10))
    (hst : ∀ movable : Finset Nat, (∀ f, f ∈ movable ↔ Movable db args.clusterIds f) →
      Stable (seen db.docsOf args.probe) movable (placement db args.clusterIds))
    (hret : ((refineClusters (exactScorer ch args) ch args).exec none c).2 = .ok .none) :
    ∃ db', EditOk (refineClusters (exactScorer ch args) ch args) c db db' .none ∧ ∀ f, assign db' f = assign db f := by
  set n := (refinable db args.clusterIds).length with hn
  have hnt := no_target (n := n) (pn := (pinnedSelected db args.clusterIds).length) htarget
  by_cases hwork : n = 0 ∨ n = 1 ∧ (n : Int) = 1
  · exact refine_nothing_to_do ch args c db hc hs n _ _ n hn rfl rfl hnt.symm hwork hret
  obtain ⟨db', movable, pinned, fixed, new, q, k, p, tested, gone, wants, g1, g2, g3, g4, g5, g6, g7, g8, g9, g10, g11, g12, g13, g14⟩ :=
    refine_is_greedy ch args c db hc hs n _ _ n hn rfl rfl hnt.symm hwork hk hret
  have hzero : ((n : Int) - n).toNat = 0 := by simp
  rw [hzero] at g10 g12 g14
  simp only [Nat.zero_add] at g12
  have hcard : (placement db args.clusterIds).clusters.card = n := by
    simp only [placement]
    rw [List.toFinset_card_of_nodup (refinable_nodup hs.toWellformed _)]
  have hp : ∀ j, j ≤ k → p j = placement db args.clusterIds := by
    intro j
    induction j with
    | zero => intro _; rw [g10, g8]
    | succ j ih =>
      intro hj
      have e := ih (by omega)
      have hr := g12.rounds j (by omega)
      have htst := (g12.tests j (by omega)).1
      simp only [Nat.zero_sub, Nat.zero_min] at hr
      rw [e] at hr htst
      rw [hcard] at htst
      refine round_stable hr (htst (by omega)) ?_ ?_ (hst movable g2)
      · intro f x y hx hy
        have h1 := ((placement_single hs _ f x).1 hx).2
        have h2 := ((placement_single hs _ f y).1 hy).2
        rw [h1] at h2
        exact Option.some.inj h2
      · intro f hf
        obtain ⟨-, x, hx, hfx⟩ := (g2 f).1 hf
        exact ⟨x, (placement_single hs _ f x).2 ⟨hx, hfx⟩⟩
  refine ⟨db', g1, fun f => ?_⟩
  by_cases hf : ∃ x ∈ refinable db args.clusterIds, assign db f = some x
  · obtain ⟨x, hx, hfx⟩ := hf
    obtain ⟨y, -, hy, hlt, -⟩ := g14 f x hx hfx
    rw [hp k le_rfl] at hy
    obtain ⟨h1, h2⟩ := (placement_single hs _ f y).1 hy
    rw [hlt (g6 y h1), h2]
  · exact g13 f (fun x hx h => hf ⟨x, hx, h⟩)

/-- **C67, one round.** With one iteration, no target, no group testing, no lower bound on cluster sizes and all draws in favour of
moving, every feature that may move goes to the cluster in which it had its best score before the call. -/
theorem one_round_moves_all_to_best (ch : Chance) (args : RefineArgs) (c : Conn DB) (db : DB) (hc : Idle c db) (hs : Settled db)
    (htarget : args.target = none) (hit : args.iterations = 1) (hmin : args.minFeatures = 0) (hk : 1 ≤ args.groupTopK)
    (hb : args.groupBatches.getD (((refinable db args.clusterIds).length + 9) / 10) ≤ 1 ∨
      (refinable db args.clusterIds).length < 2 * args.groupBatches.getD (((refinable db args.clusterIds).length + 9) / 10))
    (hn2 : 2 ≤ (refinable db args.clusterIds).length) (hacc : ∀ f, ch.accept 0 f = true)
    (hret : ((refineClusters (exactScorer ch args) ch args).exec none c).2 = .ok .none) :
    ∃ db', EditOk (refineClusters (exactScorer ch args) ch args) c db db' .none ∧
      ∀ f, Movable db args.clusterIds f → ∃ y, assign db' f = some y ∧
        BestAmong (seen db.docsOf args.probe) (placement db args.clusterIds) (refinable db args.clusterIds).toFinset f y := by
  set n := (refinable db args.clusterIds).length with hn
  have hnt := no_target (n := n) (pn := (pinnedSelected db args.clusterIds).length) htarget
  obtain ⟨db', movable, pinned, fixed, new, q, k, p, tested, gone, wants, g1, g2, g3, g4, g5, g6, g7, g8, g9, g10, g11, g12, g13, g14⟩ :=
    refine_is_greedy ch args c db hc hs n _ _ n hn rfl rfl hnt.symm (by omega) hk hret
  have hzero : ((n : Int) - n).toNat = 0 := by simp
  rw [hzero] at g10 g12 g14
  simp only [Nat.zero_add] at g12
  have hcard : (placement db args.clusterIds).clusters.card = n := by
    simp only [placement]
    rw [List.toFinset_card_of_nodup (refinable_nodup hs.toWellformed _)]
  have hk1 : k = 1 := by
    have h1 := g12.atMost
    rw [hit] at h1
    change k ≤ 1 at h1
    omega
  subst hk1
  have e : p 0 = placement db args.clusterIds := by rw [g10, g8]
  have hr := g12.rounds 0 (by omega)
  have htst := (g12.tests 0 (by omega)).1
  simp only [Nat.zero_sub, Nat.zero_min, Nat.zero_add] at hr
  rw [e] at hr htst
  rw [hcard] at htst
  obtain ⟨hg, hte⟩ := round_best hr (htst (by omega))
  have hall : (placement db args.clusterIds).clusters.filter (fun z => ((placement db args.clusterIds).members z).Nonempty) =
      (refinable db args.clusterIds).toFinset := by
    ext x
    rw [Finset.mem_filter]
    simp only [placement, List.mem_toFinset]
    refine ⟨fun h => h.1, fun h => ⟨h, ?_⟩⟩
    obtain ⟨hh, -⟩ := (mem_refinable hs.toWellformed _ _).1 h
    obtain ⟨f, hf⟩ := (hasCluster_iff_assign hs x).1 hh
    rw [if_pos h]
    exact ⟨f, List.mem_toFinset.2 ((mem_featuresIn hs.toWellformed x f).2 hf)⟩
  refine ⟨db', g1, fun f hf => ?_⟩
  obtain ⟨-, x, hx, hfx⟩ := id hf
  have hfm := (g2 f).2 hf
  have hfp := (placement_single hs _ f x).2 ⟨hx, hfx⟩
  have hst : ∃ y, BestAmong (seen db.docsOf args.probe) (placement db args.clusterIds) (refinable db args.clusterIds).toFinset f y ∧
      f ∈ (p 1).members y := by
    by_cases hw : f ∈ wants 0
    · obtain ⟨y, h1, -, -, h4⟩ := hr.moves f hw x (by rw [hg]; simp) hfp
      rw [hte f hfm, hall] at h1
      rw [hacc f, if_pos rfl] at h4
      exact ⟨y, h1, h4⟩
    · obtain ⟨h1, y, h2, h3⟩ := hr.stays f hfm hw x hfp
      rw [hte f hfm, hall] at h2
      rcases h3 with rfl | h3 | h3
      · exact ⟨_, h2, h1⟩
      · rw [hg] at h3; simp at h3
      · rw [hmin] at h3
        have : f ∈ (placement db args.clusterIds).members x ∩ (p 1).members x := Finset.mem_inter.2 ⟨hfp, h1⟩
        rw [Finset.card_eq_zero.1 (Nat.le_zero.1 h3)] at this
        simp at this
  obtain ⟨y, hy1, hy2⟩ := hst
  refine ⟨y, ?_, hy1⟩
  obtain ⟨z, -, hz, hlt, -⟩ := g14 f x hx hfx
  have := hr.single f y z hy2 hz
  subst this
  exact hlt (g6 y (List.mem_toFinset.1 hy1.1))

/-- **C67, the weakest clusters are dissolved.** A refinement to fewer clusters, in one iteration and keeping at least one feature in each
cluster: of two clusters that may be dissolved the one with the greater objective is not dissolved before the other. -/
theorem dissolves_weakest (ch : Chance) (args : RefineArgs) (c : Conn DB) (db : DB) (hc : Idle c db) (hs : Settled db)
    (hit : args.iterations = 1) (hmin : args.minFeatures = 1) (hk : 1 ≤ args.groupTopK) (t : Int) (ht : args.target = some t) (ht0 : t ≠ 0)
    (hlo : t < (refinable db args.clusterIds).length + (pinnedSelected db args.clusterIds).length)
    (htp : t ≠ (pinnedSelected db args.clusterIds).length) (hn2 : 2 ≤ (refinable db args.clusterIds).length)
    (hret : ((refineClusters (exactScorer ch args) ch args).exec none c).2 = .ok .none) :
    ∃ db', EditOk (refineClusters (exactScorer ch args) ch args) c db db' .none ∧
      ∀ x ∈ dissolvable db args.clusterIds, ∀ y ∈ dissolvable db args.clusterIds,
        objective (seen db.docsOf args.probe) (featuresIn db x).toFinset < objective (seen db.docsOf args.probe) (featuresIn db y).toFinset →
        ¬ hasCluster db' y → ¬ hasCluster db' x := by
  set n := (refinable db args.clusterIds).length with hn
  set pn := (pinnedSelected db args.clusterIds).length with hpn
  obtain ⟨db', movable, pinned, fixed, new, q, k, p, tested, gone, wants, g1, g2, g3, g4, g5, g6, g7, g8, g9, g10, g11, g12, g13, g14⟩ :=
    refine_is_greedy ch args c db hc hs n pn t (t - pn) hn hpn (by rw [ht]; simp [ht0]) (by rw [if_neg htp]) (by omega) hk hret
  have hzero : ((t - pn) - n : Int).toNat = 0 := by omega
  rw [hzero] at g10 g14
  have hk1 : k = 1 := by
    have h1 := g12.atMost
    rw [hit] at h1
    change k ≤ 1 at h1
    omega
  subst hk1
  have e : p 0 = placement db args.clusterIds := by rw [g10, g8]
  have hr := g12.rounds 0 (by omega)
  rw [e] at hr
  rw [hmin] at hr
  simp only [Nat.zero_add] at hr
  have href : ∀ x, x ∈ dissolvable db args.clusterIds → x ∈ refinable db args.clusterIds ∧
      x ∈ (placement db args.clusterIds).clusters \ fixed := by
    intro x hx
    simp only [dissolvable, List.mem_filter, decide_eq_true_eq] at hx
    refine ⟨hx.1, Finset.mem_sdiff.2 ⟨List.mem_toFinset.2 hx.1, fun hf => ?_⟩⟩
    obtain ⟨-, f, h1, h2⟩ := (g5 x).1 hf
    obtain ⟨r, hr1, r1, r2⟩ := (assign_some_iff hs.toWellformed _ _).1 h1
    obtain ⟨r', hr', r3, r4⟩ := (featurePin_some_iff hs.toWellformed _ _).1 h2
    have : r = r' := List.inj_on_of_nodup_map hs.oneCluster hr1 hr' (by rw [r1, r3])
    subst this
    have := hx.2 r hr1 r2
    rw [r4] at this
    cases this
  have hmem : ∀ x ∈ refinable db args.clusterIds, (placement db args.clusterIds).members x = (featuresIn db x).toFinset := by
    intro x hx
    simp only [placement, if_pos hx]
  have hnext : ∀ x ∈ refinable db args.clusterIds, x < nextClusterId db := by
    intro x hx
    obtain ⟨⟨k, hk, rfl⟩, -⟩ := (mem_refinable hs.toWellformed _ _).1 hx
    exact nextClusterId_fresh db k hk
  -- stored exactly
  have hstored : ∀ f, ∀ x ∈ refinable db args.clusterIds, assign db' f = some x ↔ f ∈ (p 1).members x := by
    intro f x hx
    by_cases hf : ∃ z ∈ refinable db args.clusterIds, assign db f = some z
    · obtain ⟨z, hz, hfz⟩ := hf
      obtain ⟨y, hy1, hy2, hy3, hy4⟩ := g14 f z hz hfz
      have hyc : y ∈ (placement db args.clusterIds).clusters := by
        rw [hr.clusters] at hy1; exact (Finset.mem_sdiff.1 hy1).1
      have hyn : y < new := g6 y (List.mem_toFinset.1 hyc)
      rw [hy3 hyn]
      constructor
      · rintro ⟨⟩; exact hy2
      · intro h; rw [hr.single f x y h hy2]
    · have hno : ∀ z ∈ refinable db args.clusterIds, assign db f ≠ some z := fun z hz h => hf ⟨z, hz, h⟩
      rw [g13 f hno]
      refine ⟨fun h => absurd h (hno x hx), fun h => ?_⟩
      have hfm : f ∉ movable := fun h => by
        obtain ⟨-, z, hz, hfz⟩ := (g2 f).1 h
        exact hno z hz hfz
      have := (hr.others f hfm x).1 h
      exact absurd ((placement_single hs _ f x).1 this).2 (hno x hx)
  refine ⟨db', g1, ?_⟩
  intro x hx y hy hlt hny hhx
  obtain ⟨hxr, hxc⟩ := href x hx
  obtain ⟨hyr, hyc⟩ := href y hy
  have hyg : y ∈ gone 0 := by
    by_contra hyg
    have hyq : y ∈ (p 1).clusters := by
      rw [hr.clusters]; exact Finset.mem_sdiff.2 ⟨(Finset.mem_sdiff.1 hyc).1, hyg⟩
    have hne : 1 ≤ ((placement db args.clusterIds).members y).card := by
      obtain ⟨hh, -⟩ := (mem_refinable hs.toWellformed _ _).1 hyr
      obtain ⟨f, hf⟩ := (hasCluster_iff_assign hs y).1 hh
      exact Finset.card_pos.2 ⟨f, (placement_single hs _ f y).2 ⟨hyr, hf⟩⟩
    obtain ⟨f, hf⟩ := Finset.card_pos.1 (hr.keeps y hyq hne)
    exact hny ((hasCluster_iff_assign g1.settled y).2 ⟨f, (hstored f y hyr).2 hf⟩)
  have hxg : x ∈ gone 0 := by
    by_contra hxg
    have := hr.goneLowest y hyg x hxc hxg
    rw [hmem y hyr, hmem x hxr] at this
    exact absurd hlt (not_lt.2 this)
  obtain ⟨f, hf⟩ := (hasCluster_iff_assign g1.settled x).1 hhx
  have hf1 := (hstored f x hxr).1 hf
  rw [hr.outside x (by rw [hr.clusters]; exact fun h => (Finset.mem_sdiff.1 h).2 hxg)] at hf1
  simp at hf1

/-! Examples on the index with the features 1, 2, 5 that occur together, and 3, 4, 6. -/

/-- The clusters 1 = {1, 3, 5} and 2 = {2, 4, 6}. -/
def mixed : DB := (runOps [(.create [1, 3, 5], none), (.create [2, 4, 6], none)] (Conn.fresh refineIndex)).committed

theorem mixed_settled : Settled mixed :=
  (model_always_settled _ (by intro op h; fin_cases h <;> trivial) _ refineIndex_settled).1

theorem mixed_idle : Idle (Conn.fresh mixed) mixed := ⟨rfl, rfl, rfl, rfl, rfl, rfl⟩

/-- Did a call return `None`? -/
def returnedNone : Except Err Ret → Bool
  | .ok .none => true
  | _ => false

theorem of_returnedNone {r : Except Err Ret} (h : returnedNone r = true) : r = .ok .none := by
  unfold returnedNone at h
  split at h
  · rfl
  · cases h

/-- A refinement to three clusters returns; one is split off and features move. -/
theorem mixed_refined : returnedNone ((refineDemo { target := some 3 }).exec none (Conn.fresh mixed)).2 = true ∧
    assignments ((refineDemo { target := some 3 }).exec none (Conn.fresh mixed)).1.committed =
      [(1, 1), (3, 3), (5, 1), (2, 1), (4, 3), (6, 3)] := by decide +kernel

/-- So all hypotheses of `refine_is_greedy` are met. -/
example : ∃ (db' : DB) (p : Nat → Placement) (k : Nat), EditOk (refineDemo { target := some 3 }) (Conn.fresh mixed) mixed db' .none ∧ 1 ≤ k ∧ k ≤ 10 ∧
    (p k).clusters.card ≤ 3 := by
  obtain ⟨db', movable, pinned, fixed, new, q, k, p, tested, gone, wants, g1, g2, g3, g4, g5, g6, g7, g8, g9, g10, g11, g12, -⟩ :=
    refine_is_greedy demoChance { target := some 3 } _ _ mixed_idle mixed_settled 2 0 3 3 (by decide +kernel) (by decide +kernel)
      (by decide) (by decide) (by decide) (by decide) (of_returnedNone mixed_refined.1)
  refine ⟨db', p, k, g1, g11, g12.atMost, ?_⟩
  have h1 := g9 0 (by decide)
  have h0 : (p 0).clusters.card ≤ 3 := by
    rw [g10]
    change (q 1).clusters.card ≤ 3
    rw [h1.2.1, g8]
    refine (Finset.card_insert_le _ _).trans ?_
    have : (placement mixed []).clusters.card = 2 := by decide +kernel
    change (placement mixed []).clusters.card + 1 ≤ 3
    omega
  have : ∀ j ≤ k, (p j).clusters.card ≤ 3 := by
    intro j
    induction j with
    | zero => intro _; exact h0
    | succ j ih =>
      intro hj
      rw [(g12.rounds j hj).clusters]
      exact (Finset.card_le_card Finset.sdiff_subset).trans (ih (by omega))
  exact this k le_rfl

/-- The two groups, as clusters 1 and 2. -/
def sorted : DB := (runOps [(.create [1, 2, 5], none), (.create [3, 4, 6], none)] (Conn.fresh refineIndex)).committed

theorem sorted_settled : Settled sorted :=
  (model_always_settled _ (by intro op h; fin_cases h <;> trivial) _ refineIndex_settled).1

instance (docs : Nat → Bitmap) (f : Nat) (G : Finset Nat) : Decidable (Overlaps docs f G) :=
  inferInstanceAs (Decidable (∃ g ∈ G, g ≠ f ∧ (docs f ∩ docs g).Nonempty))

/-- They cannot be improved: the hypothesis of `refine_keeps_stable` is met, and that of `one_round_moves_all_to_best`. -/
theorem sorted_stable (movable : Finset Nat) (hm : ∀ f, f ∈ movable ↔ Movable sorted [] f) :
    Stable (seen sorted.docsOf none) movable (placement sorted []) := by
  intro f hf x hx
  obtain ⟨hxr, hfx⟩ := (placement_single sorted_settled _ f x).1 hx
  have hxc : x ∈ (placement sorted []).clusters := List.mem_toFinset.2 hxr
  have hc : (placement sorted []).clusters = {1, 2} := by decide +kernel
  have hover : ∀ y ∈ (placement sorted []).clusters, ∀ g ∈ (placement sorted []).members y,
      Overlaps (seen sorted.docsOf none) g ((placement sorted []).members y) ∧
      -1 < objective (seen sorted.docsOf none) ((placement sorted []).members y) -
        objective (seen sorted.docsOf none) (((placement sorted []).members y).erase g) := by decide +kernel
  have hapart : ∀ y ∈ (placement sorted []).clusters, ∀ g ∈ (placement sorted []).members y, ∀ z ∈ (placement sorted []).clusters,
      z ≠ y → g ∉ (placement sorted []).members z ∧ ¬ Overlaps (seen sorted.docsOf none) g ((placement sorted []).members z) := by
    decide +kernel
  obtain ⟨o1, o2⟩ := hover x hxc f hx
  refine ⟨Finset.mem_filter.2 ⟨hxc, f, hx⟩, _, ⟨fun _ _ => rfl, fun _ h => absurd o1 h, fun _ h => absurd o1 h, fun h => absurd hx h,
    fun h => absurd hx h⟩, ?_⟩
  intro z hz t ht
  by_cases hzx : z = x
  · subst hzx
    exact Or.inr ⟨ht.1 hx o1, le_rfl⟩
  · obtain ⟨a1, a2⟩ := hapart x hxc f hx z (Finset.mem_filter.1 hz).1 hzx
    left
    rw [ht.2.2.2.2 a1 a2]
    exact o2

example : ∃ db', EditOk (refineDemo {}) (Conn.fresh sorted) sorted db' .none ∧ ∀ f, assign db' f = assign sorted f :=
  refine_keeps_stable demoChance {} _ _ ⟨rfl, rfl, rfl, rfl, rfl, rfl⟩ sorted_settled rfl (by decide) (by decide +kernel) sorted_stable
    (of_returnedNone (by decide +kernel))

example : ∃ db', EditOk (refineDemo { iterations := 1, minFeatures := 0 }) (Conn.fresh mixed) mixed db' .none ∧
    ∀ f, Movable mixed [] f → ∃ y, assign db' f = some y ∧
      BestAmong (seen mixed.docsOf none) (placement mixed []) (refinable mixed []).toFinset f y :=
  one_round_moves_all_to_best demoChance { iterations := 1, minFeatures := 0 } _ _ mixed_idle mixed_settled rfl rfl rfl (by decide)
    (by decide +kernel) (by decide +kernel) (fun _ => rfl) (of_returnedNone (by decide +kernel))

/-- The clusters {1, 2, 5}, {3, 4}, {6}: the last has the lowest objective, and is dissolved when two are asked for. -/
def uneven : DB :=
  (runOps [(.create [1, 2, 5], none), (.create [3, 4], none), (.create [6], none)] (Conn.fresh refineIndex)).committed

theorem uneven_settled : Settled uneven :=
  (model_always_settled _ (by intro op h; fin_cases h <;> trivial) _ refineIndex_settled).1

example : ∃ db', EditOk (refineDemo { iterations := 1, target := some 2 }) (Conn.fresh uneven) uneven db' .none ∧
      ∀ x ∈ dissolvable uneven [], ∀ y ∈ dissolvable uneven [],
        objective (seen uneven.docsOf none) (featuresIn uneven x).toFinset < objective (seen uneven.docsOf none) (featuresIn uneven y).toFinset →
        ¬ hasCluster db' y → ¬ hasCluster db' x :=
  dissolves_weakest demoChance { iterations := 1, target := some 2 } _ _ ⟨rfl, rfl, rfl, rfl, rfl, rfl⟩ uneven_settled rfl rfl (by decide) 2 rfl
    (by decide) (by decide +kernel) (by decide +kernel) (by decide +kernel) (of_returnedNone (by decide +kernel))

example : dissolvable uneven [] = [1, 2, 3] ∧
    objective (seen uneven.docsOf none) (featuresIn uneven 3).toFinset < objective (seen uneven.docsOf none) (featuresIn uneven 2).toFinset ∧
    assignments ((refineDemo { iterations := 1, target := some 2 }).exec none (Conn.fresh uneven)).1.committed =
      [(1, 1), (2, 1), (5, 1), (3, 2), (4, 2), (6, 2)] := by decide +kernel

end Hyperreal.Props
