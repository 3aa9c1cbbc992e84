import Verif.Lemmas.RefineTotal
import Verif.Props.Store

/-! From the plan to the effect of the public call. -/

namespace Hyperreal
open Spec Atomic Props DB

variable {σ : Type} [LinearOrder σ]

theorem assign_lt_next {db : DB} (h : Settled db) {f : Nat} {x : Int} (hx : assign db f = some x) : x < nextClusterId db := by
  obtain ⟨k, hk, rfl⟩ := (hasCluster_iff_assign h x).2 ⟨f, hx⟩
  exact nextClusterId_fresh db k hk

/-- When no new cluster is lost the stored assignment is the refined one. -/
theorem PlanOk.exact {args : RefineArgs} {db : DB} {cf1 : Clustering} {newIds : List Int} {m : List (Int × List Nat)}
    (h : PlanOk args db cf1 newIds m) (hs : Settled db)
    (hno : ∀ i, i < newIds.length → ¬ Lost (nextLocalId (startOf args db).1) (nextClusterId db) newIds.length i) :
    (∀ c ∈ (startOf args db).1.keys, ∀ f, (assign db f).map (lastAssigned (pairsOf m) f) = some c ↔ In cf1 c f) ∧
    (∀ i : Nat, i < newIds.length → ∀ f, (assign db f).map (lastAssigned (pairsOf m) f) = some (nextClusterId db + i) ↔
      In cf1 (nextLocalId (startOf args db).1 + i) f) := by
  obtain ⟨k1, k2, k3, -⟩ := start_spec args hs
  have hlt := startIds_lt (args := args) hs
  have hpair : ∀ f x, In (startOf args db).1 x f → ∃ c, (c, f) ∈ pairsOf m := by
    intro f x hx
    obtain ⟨c', hc'⟩ := (h.groups.sameFeatures f).2 ⟨x, hx⟩
    rcases h.groups.keysFrom c' hc'.key with hk | hk
    · exact ⟨c', h.old c' f hk hc'⟩
    · rw [h.groups.newIds_eq] at hk
      obtain ⟨e1, e2⟩ := mem_rangeFrom.1 hk
      have hl : (c' - nextLocalId (startOf args db).1).toNat < newIds.length := by
        rw [h.groups.newIds_eq, rangeFrom_length]; omega
      refine ⟨_, (h.kept _ hl (hno _ hl) f).2 ?_⟩
      have e : nextLocalId (startOf args db).1 + ((c' - nextLocalId (startOf args db).1).toNat : Int) = c' := by omega
      rw [e]; exact hc'
  have hhome : ∀ c f, In cf1 c f → ∃ x, assign db f = some x := by
    intro c f hc
    obtain ⟨x, hx⟩ := (h.groups.sameFeatures f).1 ⟨c, hc⟩
    exact ⟨x, ((k3 x f).1 hx).1⟩
  constructor
  · intro c hc f
    constructor
    · intro hy
      obtain ⟨x, hx, hy⟩ := Option.map_eq_some_iff.1 hy
      rcases (h.dest f x c).1 hy with hp | ⟨rfl, hp⟩
      · rcases h.only c f hp with ⟨-, h2⟩ | ⟨i, -, e, -⟩
        · exact h2
        · have := hlt c hc; omega
      · obtain ⟨c', hc'⟩ := hpair f c ((k3 c f).2 ⟨hx, (k2 c).1 hc⟩)
        exact absurd hc' (hp c')
    · intro hin
      obtain ⟨x, hx⟩ := hhome c f hin
      rw [hx, Option.map_some, (h.dest f x c).2 (Or.inl (h.old c f hc hin))]
  · intro i hi f
    constructor
    · intro hy
      obtain ⟨x, hx, hy⟩ := Option.map_eq_some_iff.1 hy
      rcases (h.dest f x _).1 hy with hp | ⟨e, -⟩
      · exact (h.kept i hi (hno i hi) f).1 hp
      · have := assign_lt_next hs hx; omega
    · intro hin
      obtain ⟨x, hx⟩ := hhome _ f hin
      rw [hx, Option.map_some, (h.dest f x _).2 (Or.inl ((h.kept i hi (hno i hi) f).2 hin))]

/-- A refinement that fails changes nothing. -/
theorem refine_err {plan : DB → Except Err (List (Int × List Nat))} {c : Conn DB} {db : DB} {e : Err} (hc : Idle c db)
    (hs : Settled db) (hp : plan db = .error e) :
    ((ModelOp.refine plan).exec none c).2 = .error e ∧ ((ModelOp.refine plan).exec none c).1.committed = db ∧
    (e.isException = true → Idle ((ModelOp.refine plan).exec none c).1 db) := by
  have he := (eval_refineWith plan (Settled.toPending hs)).1 e hp
  by_cases hx : e.isException = true
  · obtain ⟨h1, h2, -⟩ := exec_err (.refine plan) c db db e hc hs he hx (by rw [updateChanged_settled hs])
    exact ⟨h1, h2.committed, fun _ => h2⟩
  · have hi : e = .interrupt := by cases e <;> simp [Err.isException] at hx ⊢
    subst hi
    obtain ⟨h1, h2⟩ := atomic_interrupt_commits (DB.updateChanged none) "refine_clusters" false (refineWith plan) c db hc
      (by rw [he]) (by simp only [refineWith, touched_reading, hp, touched])
    rw [he] at h2
    exact ⟨h1, h2, fun h => absurd h hx⟩

/-- A refinement that returned computed a plan and stored it. -/
theorem refine_ran {score : DB → Nat → Finset Nat → Nat → Clustering → Except Err (Scores σ Int)} {ch : Chance}
    {args : RefineArgs} {c : Conn DB} {db : DB} (hc : Idle c db) (hs : Settled db) {v : Ret}
    (hret : ((refineClusters score ch args).exec none c).2 = .ok v) :
    ∃ db' cf1 newIds m, EditOk (refineClusters score ch args) c db db' .none ∧
      refineGroups (score db (batchesOf args db)) ch (cfgOf args db) (selectPinned args db)
        (startOf args db).1 = .ok (cf1, newIds) ∧ PlanOk args db cf1 newIds m ∧
      (∀ f, assign db' f = (assign db f).map (lastAssigned (pairsOf m) f)) ∧
      (∀ f, featurePin db' f = featurePin db f) ∧
      (∀ x, hasCluster db' x → clusterPin db' x = some ((clusterPin db x).getD false)) := by
  cases hp : refinePlan score ch args db with
  | error e =>
    rw [show ((refineClusters score ch args).exec none c).2 = _ from (refine_err hc hs hp).1] at hret
    cases hret
  | ok m =>
    obtain ⟨cf1, newIds, h1, h2⟩ := plan_spec hs hp
    obtain ⟨db', e1, e2, e3, e4⟩ := refine_keeps_pins (refinePlan score ch args) m c db hc hs hp
    exact ⟨db', cf1, newIds, m, e1, h1, h2, e2, e3, e4⟩

/-- The target the refinement uses. -/
theorem effectiveTarget_eq (args : RefineArgs) {db : DB} (hs : Settled db) :
    effectiveTarget (cfgOf args db) (startOf args db).1 =
      (let n : Int := (refinable db args.clusterIds).length
       let p : Int := (pinnedSelected db args.clusterIds).length
       if orDefault args.target (n + p) = p then n else orDefault args.target (n + p) - p) := by
  obtain ⟨-, -, -, k4, k5, k6⟩ := start_spec args hs
  simp only [effectiveTarget, cfgOf, k4, k5, k6]
  have : ((((refinable db args.clusterIds).length + (pinnedSelected db args.clusterIds).length : Nat)) : Int) =
    ((refinable db args.clusterIds).length : Int) + (pinnedSelected db args.clusterIds).length := by push_cast; rfl
  rw [this]
  set t := orDefault args.target _ with ht
  show orDefault (some _) _ = _
  unfold orDefault
  simp only
  split <;> split <;> omega

/-- The number of features of a cluster. -/
theorem card_eq_count {db : DB} (h : Wellformed db) {x : Int} {G : Finset Nat} (hG : ∀ f, f ∈ G ↔ assign db f = some x) :
    G.card = db.fc.countP (fun r => r.cid = x) := by
  have e : G = ((db.fc.filter (fun r => r.cid = x)).map (·.fid)).toFinset := by
    ext f
    rw [hG, assign_some_iff h]
    simp only [List.mem_toFinset, List.mem_map, List.mem_filter, decide_eq_true_eq]
    constructor
    · rintro ⟨r, hr, e1, e2⟩; exact ⟨r, ⟨hr, e2⟩, e1⟩
    · rintro ⟨r, ⟨hr, e2⟩, e1⟩; exact ⟨r, hr, e1, e2⟩
  rw [e, List.toFinset_card_of_nodup (h.oneCluster.sublist (List.filter_sublist.map _)), List.length_map,
    List.countP_eq_length_filter]

theorem mem_dissolvable (args : RefineArgs) {db : DB} (hs : Settled db) :
    ((startOf args db).1.keys.filter (fun c => c ∉ pinnedIn (startOf args db).1 (selectPinned args db))).length =
      (dissolvable db args.clusterIds).length := by
  obtain ⟨k1, k2, k3, -⟩ := start_spec args hs
  refine ((List.perm_ext_iff_of_nodup (k1.filter _) ((refinable_nodup hs.toWellformed _).filter _)).2 ?_).length_eq
  intro c
  rw [List.mem_filter]
  simp only [dissolvable, List.mem_filter, decide_eq_true_eq, k2, mem_pinnedIn k1]
  refine and_congr_right fun hc => ?_
  constructor
  · intro h r hr e
    by_contra hp
    refine h ⟨r.fid, ?_, ?_⟩
    · rw [mem_selectPinned args hs.toWellformed]
      refine ⟨(featurePin_some_iff hs.toWellformed _ _).2 ⟨r, hr, rfl, by simpa using hp⟩, r.cid,
        (assign_some_iff hs.toWellformed _ _).2 ⟨r, hr, rfl, rfl⟩, ?_⟩
      obtain ⟨h1, h2, -⟩ := (mem_refinable hs.toWellformed _ _).1 hc
      rw [e]
      exact (mem_chosen c h1).2 h2
    · rw [k3]
      exact ⟨(assign_some_iff hs.toWellformed _ _).2 ⟨r, hr, rfl, e⟩, hc⟩
  · rintro h ⟨f, hf, hin⟩
    obtain ⟨h1, -⟩ := (mem_selectPinned args hs.toWellformed f).1 hf
    obtain ⟨r, hr, e1, e2⟩ := (featurePin_some_iff hs.toWellformed _ _).1 h1
    obtain ⟨r', hr', e3, e4⟩ := (assign_some_iff hs.toWellformed _ _).1 ((k3 c f).1 hin).1
    have : r' = r := List.inj_on_of_nodup_map hs.oneCluster hr' hr (by rw [e3, e1])
    subst this
    have := h r' hr' e4
    rw [e2] at this
    cases this

theorem movable_iff (args : RefineArgs) {db : DB} (hs : Settled db) (f : Nat) :
    f ∈ movableOf (startOf args db).1 (selectPinned args db) ↔ Movable db args.clusterIds f := by
  obtain ⟨k1, k2, k3, -⟩ := start_spec args hs
  rw [movableOf_eq, Finset.mem_filter, mem_featuresOf k1, mem_selectPinned args hs.toWellformed]
  unfold Movable
  constructor
  · rintro ⟨⟨c, hc⟩, hp⟩
    obtain ⟨h1, h2⟩ := (k3 c f).1 hc
    refine ⟨?_, c, h2, h1⟩
    obtain ⟨r, hr, e1, e2⟩ := (assign_some_iff hs.toWellformed _ _).1 h1
    have hfp := (featurePin_some_iff hs.toWellformed f r.pinned).2 ⟨r, hr, e1, rfl⟩
    obtain ⟨h3, h4, -⟩ := (mem_refinable hs.toWellformed _ _).1 h2
    cases hr : r.pinned with
    | false => rw [hfp, hr]
    | true =>
      exfalso
      rw [hr] at hfp
      exact hp ⟨hfp, c, h1, (mem_chosen c h3).2 h4⟩
  · rintro ⟨h1, x, hx, h2⟩
    refine ⟨⟨x, (k3 x f).2 ⟨h2, hx⟩⟩, ?_⟩
    rintro ⟨h3, -⟩
    rw [h1] at h3
    cases h3

end Hyperreal
