import Verif.Model.WebActions
import Verif.Props.Cli
import Verif.Props.Query

/-! # The actions of the web server (C58, C59) -/

namespace Hyperreal.Props
open Atomic Spec Cli Web

variable {σ : Type} [LinearOrder σ]

theorem calls_safe (fault : Nat → Option Err) : ∀ (ops : List ModelOp) (i : Nat) (c : Conn DB), (∀ op ∈ ops, op.Valid) → Safe c →
    Safe (calls fault i ops c).1
  | [], _, _, _, h => h
  | [op], i, c, hv, h => (safe_step op (fault i) (hv op (by simp)) c h).1
  | op :: op' :: ops, i, c, hv, h => by
    have h1 := (safe_step op (fault i) (hv op (by simp)) c h).1
    unfold calls
    cases hx : op.exec (fault i) c with
    | mk c' r =>
      rw [hx] at h1
      cases r with
      | ok v => exact calls_safe fault (op' :: ops) (i + 1) c' (fun o ho => hv o (by simp [ho])) h1
      | error e => exact h1

theorem plan_valid (luck : Luck σ) (hsh : ∀ l, (luck.shuffle l).Perm l) (a : Action) : ∀ op ∈ (a.plan luck).1, op.Valid := by
  intro op hop
  cases a <;> simp only [Action.plan, List.mem_cons, List.not_mem_nil, or_false] at hop
  all_goals first
    | (subst hop; trivial)
    | (rcases hop with rfl | rfl; exacts [hsh, trivial])

theorem perform_eq (luck : Luck σ) (fault : Nat → Option Err) (a : Action) (db : DB) :
    (a.perform luck fault db).1 = (calls fault 0 (a.plan luck).1 (Conn.fresh db)).1.committed := by
  unfold Action.perform
  cases hx : calls fault 0 (a.plan luck).1 (Conn.fresh db) with
  | mk c r => cases r <;> rfl

/-- **C58.** However many requests, whatever they ask for, whatever the draws, and whichever of them fail: the index file holds
a settled model after each of them. -/
theorem requests_always_settled (rs : List (Action × Luck σ × (Nat → Option Err)))
    (hsh : ∀ r ∈ rs, ∀ l, (r.2.1.shuffle l).Perm l) (db : DB) (hs : Settled db) : Settled (serve rs db) := by
  induction rs generalizing db with
  | nil => exact hs
  | cons r rs ih =>
    refine ih (fun r hr => hsh r (by simp [hr])) _ ?_
    rw [perform_eq]
    exact (calls_safe r.2.2 _ 0 (Conn.fresh db) (plan_valid r.2.1 (hsh r (by simp)) r.1)
      ⟨hs, by simp [Conn.fresh], Or.inl (fresh_idle db)⟩).1

/-- A request with one call that succeeds. -/
theorem perform_one {luck : Luck σ} {a : Action} {op : ModelOp} {k : Ret → Response} {db db' : DB} {v : Ret}
    (hp : a.plan luck = ([op], k)) (h : EditOk op (Conn.fresh db) db db' v) :
    a.perform luck (fun _ => none) db = (db', k v) := by
  have h1 := h.returns
  have h2 := h.idle.committed
  unfold Action.perform
  rw [hp]
  simp only [calls]
  cases hx : op.exec none (Conn.fresh db) with
  | mk c r =>
    rw [hx] at h1 h2
    dsimp only at h1 h2
    subst h1
    simp [Conn.close, h2]

/-- **C59, deleting clusters.** Exactly the features of the given clusters leave the model; the redirect leads to the given
cluster, which exists if it did and was not deleted itself. -/
theorem delete_action_partial (luck : Luck σ) (cids : List Int) (ret : Option Int) (db : DB) (hs : Settled db) :
    let r := (Action.delete cids ret).perform luck (fun _ => none) db
    (∀ f, assign r.1 f = (assign db f).filter (fun x => x ∉ cids)) ∧
    r.2 = (match ret with | some c => .cluster c | none => .index none) ∧
    (∀ x, hasCluster r.1 x ↔ hasCluster db x ∧ x ∉ cids) := by
  obtain ⟨db', h1, h2, -, h4, -⟩ := delete_clusters_spec cids (Conn.fresh db) db (fresh_idle db) hs
  rw [perform_one (a := .delete cids ret) rfl h1]
  exact ⟨h2, by cases ret <;> rfl, h4⟩

/-- **C59, creating a cluster.** For features of the index: exactly they move to a new cluster, and the redirect leads to
it; without features it leads to a cluster that does not exist. -/
theorem create_action_partial (luck : Luck σ) (fids : List Nat) (db : DB) (hs : Settled db)
    (hk : ∀ f ∈ fids, ∃ r ∈ db.features, r.fid = f) :
    let r := (Action.create fids).perform luck (fun _ => none) db
    ∃ new, r.2 = .cluster new ∧ (∀ x, hasCluster db x → x < new) ∧
      (∀ f, assign r.1 f = if f ∈ fids then some new else assign db f) ∧ (hasCluster r.1 new ↔ fids ≠ []) := by
  obtain ⟨db', new, h1, h2, h3, h4, -⟩ := create_cluster_spec fids (Conn.fresh db) db (fresh_idle db) hs hk
  rw [perform_one (a := .create fids) rfl h1]
  refine ⟨new, rfl, h2, h3, ?_⟩
  rw [hasCluster_iff_assign h1.settled]
  constructor
  · rintro ⟨f, hf⟩ rfl
    have := (h4 f).1 hf
    simp at this
  · intro hne
    obtain ⟨f, hf⟩ := List.exists_mem_of_ne_nil _ hne
    exact ⟨f, (h4 f).2 hf⟩

/-- **C59, merging clusters.** All features of the given clusters end up in the first one, and the redirect leads to it; it
exists if any of the given clusters did. -/
theorem merge_action (luck : Luck σ) (t : Int) (rest : List Int) (db : DB) (hs : Settled db) :
    let r := (Action.merge (t :: rest)).perform luck (fun _ => none) db
    r.2 = .cluster t ∧ (∀ f, assign r.1 f = (assign db f).map (fun x => if x ∈ rest then t else x)) ∧
    (hasCluster r.1 t ↔ ∃ x ∈ t :: rest, hasCluster db x) := by
  obtain ⟨db', h1, h2, -⟩ := merge_clusters_spec t rest (Conn.fresh db) db (fresh_idle db) hs
  rw [perform_one (a := .merge (t :: rest)) rfl h1]
  refine ⟨rfl, h2, ?_⟩
  rw [hasCluster_iff_assign h1.settled]
  constructor
  · rintro ⟨f, hf⟩
    rw [h2] at hf
    obtain ⟨x, hx, e⟩ := Option.map_eq_some_iff.1 hf
    refine ⟨x, ?_, (hasCluster_iff_assign hs x).2 ⟨f, hx⟩⟩
    by_cases hm : x ∈ rest
    · simp [hm]
    · rw [if_neg hm] at e; simp [e]
  · rintro ⟨x, hx, hc⟩
    obtain ⟨f, hf⟩ := (hasCluster_iff_assign hs x).1 hc
    refine ⟨f, ?_⟩
    rw [h2, hf, Option.map_some]
    by_cases hm : x ∈ rest
    · simp [hm]
    · rcases List.mem_cons.1 hx with rfl | h
      · simp
      · exact absurd h hm

/-- **C59, pinning clusters.** Exactly the pins of the given clusters change, and the redirect leads to the first. -/
theorem pin_action (luck : Luck σ) (c : Int) (cids : List Int) (b : Bool) (db : DB) (hs : Settled db) :
    let r := (Action.pin (c :: cids) b true).perform luck (fun _ => none) db
    r.2 = .cluster c ∧ (∀ f, assign r.1 f = assign db f) ∧ (∀ f, featurePin r.1 f = featurePin db f) ∧
    (∀ x, clusterPin r.1 x = (clusterPin db x).map (fun p => if x ∈ c :: cids then b else p)) ∧
    (hasCluster r.1 c ↔ hasCluster db c) := by
  obtain ⟨db', h1, h2, h3, h4⟩ := pin_clusters_spec (c :: cids) b (Conn.fresh db) db (fresh_idle db) hs
  rw [perform_one (a := .pin (c :: cids) b true) rfl h1]
  refine ⟨rfl, h2, h3, h4, ?_⟩
  rw [hasCluster_iff_assign h1.settled, hasCluster_iff_assign hs]
  simp only [h2]

/-- **C59, removing features.** Exactly the given features leave the model; the cluster of the redirect exists if it has a
feature left. -/
theorem remove_features_action_partial (luck : Luck σ) (fids : List Nat) (c : Int) (db : DB) (hs : Settled db) :
    let r := (Action.removeFeatures fids (some c)).perform luck (fun _ => none) db
    r.2 = .cluster c ∧ (∀ f, assign r.1 f = if f ∈ fids then none else assign db f) ∧
    (hasCluster r.1 c ↔ ∃ f, f ∉ fids ∧ assign db f = some c) := by
  obtain ⟨db', h1, h2, -⟩ := delete_features_spec fids (Conn.fresh db) db (fresh_idle db) hs
  rw [perform_one (a := .removeFeatures fids (some c)) rfl h1]
  refine ⟨rfl, h2, ?_⟩
  rw [hasCluster_iff_assign h1.settled]
  constructor
  · rintro ⟨f, hf⟩
    rw [h2] at hf
    by_cases hm : f ∈ fids
    · rw [if_pos hm] at hf; cases hf
    · rw [if_neg hm] at hf; exact ⟨f, hm, hf⟩
  · rintro ⟨f, hm, hf⟩
    exact ⟨f, by rw [h2, if_neg hm, hf]⟩

/-- **C59, pinning features.** Exactly the pins of the given features change, and the redirect leads back to the cluster. -/
theorem pin_features_action (luck : Luck σ) (fids : List Nat) (b : Bool) (c : Int) (db : DB) (hs : Settled db) :
    let r := (Action.pinFeatures fids b (some c)).perform luck (fun _ => none) db
    r.2 = .cluster c ∧ (∀ f, assign r.1 f = assign db f) ∧
    (∀ f, featurePin r.1 f = (featurePin db f).map (fun p => if f ∈ fids then b else p)) ∧
    (∀ x, clusterPin r.1 x = clusterPin db x) ∧ (hasCluster r.1 c ↔ hasCluster db c) := by
  obtain ⟨db', h1, h2, h3, h4⟩ := pin_features_spec fids b (Conn.fresh db) db (fresh_idle db) hs
  rw [perform_one (a := .pinFeatures fids b (some c)) rfl h1]
  refine ⟨rfl, h2, h3, h4, ?_⟩
  rw [hasCluster_iff_assign h1.settled, hasCluster_iff_assign hs]
  simp only [h2]

/-- A request whose only call raises. -/
theorem perform_fails {luck : Luck σ} {a : Action} {op : ModelOp} {k : Ret → Response} {db : DB} {e : Err}
    (hp : a.plan luck = ([op], k)) (h1 : (op.exec none (Conn.fresh db)).2 = .error e)
    (h2 : (op.exec none (Conn.fresh db)).1.committed = db) : a.perform luck (fun _ => none) db = (db, .failed e) := by
  unfold Action.perform
  rw [hp]
  simp only [calls]
  cases hx : op.exec none (Conn.fresh db) with
  | mk c r =>
    rw [hx] at h1 h2
    dsimp only at h1 h2
    subst h1
    simp [Conn.close, h2]

/-- **C59, refining clusters.** The features of the model stay the same, pinned ones and those of other clusters do not move,
and the redirect leads to the first of the clusters; it exists if it did when no number of clusters is asked for (with the
default minimum).  An error leaves the model as it was. -/
theorem refine_action_partial (luck : Luck σ) (c : Int) (cids : List Int) (target : Option Int) (iterations : Int) (minFeatures : Nat)
    (db : DB) (hs : Settled db) :
    let r := (Action.refine (c :: cids) target iterations minFeatures true).perform luck (fun _ => none) db
    ((∃ e, r = (db, .failed e)) ∨ r.2 = .cluster c) ∧
    (∀ f, (assign r.1 f).isSome ↔ (assign db f).isSome) ∧
    (∀ f, featurePin db f = some true → assign r.1 f = assign db f) ∧
    (∀ x, hasCluster db x → x ∉ c :: cids → ∀ f, assign r.1 f = some x ↔ assign db f = some x) ∧
    (target = none → minFeatures = 1 → ∀ x, hasCluster r.1 x ↔ hasCluster db x) := by
  intro r
  obtain ⟨args, hargs⟩ : ∃ args : RefineArgs, args = { clusterIds := c :: cids, target := target, iterations := iterations, minFeatures := minFeatures } := ⟨_, rfl⟩
  have hplan : (Action.refine (c :: cids) target iterations minFeatures true).plan luck =
      ([refineClusters (luck.score args) luck.chance args], fun _ => .cluster c) := by
    rw [hargs]; simp [Action.plan, toFirst]
  cases hp : refinePlan (luck.score args) luck.chance args db with
  | error e =>
    obtain ⟨h1, h2, -⟩ := refine_err (fresh_idle db) hs hp
    have : r = (db, .failed e) := perform_fails hplan h1 h2
    rw [this]
    exact ⟨.inl ⟨e, rfl⟩, fun _ => Iff.rfl, fun _ _ => rfl, fun _ _ _ _ => Iff.rfl, fun _ _ _ => Iff.rfl⟩
  | ok m =>
    obtain ⟨db2, e0, -⟩ := refine_keeps_pins (refinePlan (luck.score args) luck.chance args) m (Conn.fresh db) db
      (fresh_idle db) hs hp
    have hret : ((refineClusters (luck.score args) luck.chance args).exec none (Conn.fresh db)).2 = .ok .none := e0.returns
    have hr : r = (db2, .cluster c) := perform_one hplan e0
    obtain ⟨db3, e1, h1, -⟩ := refine_keeps_pinned _ _ _ _ db (fresh_idle db) hs hret
    have h32 : db3 = db2 := e1.idle.committed.symm.trans e0.idle.committed
    subst h32
    obtain ⟨db4, e2, -, h2⟩ := refine_restricted _ _ args _ db (fresh_idle db) hs (by rw [hargs]; simp) hret
    have h43 : db4 = db3 := e2.idle.committed.symm.trans e0.idle.committed
    subst h43
    have hperm := refine_permutes (luck.score args) luck.chance args (Conn.fresh db) db (fresh_idle db) hs
    dsimp only at hperm
    rw [e1.idle.committed] at hperm
    rw [hr]
    refine ⟨.inr rfl, fun f => ?_, h1, fun x hx hxc f => h2 x hx (by rw [hargs]; exact hxc) f, fun ht hm x => ?_⟩
    · rw [assign_isSome_iff, assign_isSome_iff]; exact hperm.2.2 f
    · obtain ⟨db5, e3, -, h4, h5⟩ := refine_keeps_minimum _ _ args _ db (fresh_idle db) hs (.inl (by rw [hargs]; exact ht)) hret
      have h54 : db5 = db4 := e3.idle.committed.symm.trans e0.idle.committed
      subst h54
      exact ⟨h4 x, h5 (by rw [hargs]; exact hm) x⟩

/-- **C59, recreating the model.** Like the command, but with the number of clusters only used for the first assignment. -/
theorem recreate_action (luck : Luck Rat) (fields : List String) (minDocs : Nat) (n : Int) (iterations : Int) (db : DB)
    (hs : Settled db) (hscore : luck.score = exactScorer luck.chance) (hshuffle : ∀ l, (luck.shuffle l).Perm l) (hn : 0 < n)
    (hi : 1 ≤ iterations) (hf : (dealtFields db fields).Nodup) :
    let r := (Action.recreateModel fields minDocs n iterations 1).perform luck (fun _ => none) db
    let chosen := fun x : FeatRow => minDocs ≤ x.docsCount ∧ x.field ∈ dealtFields db fields
    r.2 = .index none ∧ (∀ f, (assign r.1 f).isSome ↔ ∃ x ∈ db.features, x.fid = f ∧ chosen x) ∧
    (∀ f, featurePin r.1 f ≠ some true) ∧ (∀ x, clusterPin r.1 x ≠ some true) ∧
    ∀ x, hasCluster r.1 x ↔ 0 ≤ x ∧ x < min n (db.features.countP (fun x => chosen x)) := by
  intro r chosen
  obtain ⟨db1, db2, e1, b1, c1, c2, c3, c4⟩ := initialise_then_refine luck n hn minDocs fields
    { iterations := iterations, minFeatures := 1 } hscore hshuffle rfl (.inl rfl) hi (show 1 ≤ 2 by decide) db hs hf
  have hr : r = (db2, .index none) := by
    simp only [r, Action.perform, Action.plan, calls]
    have h1 := e1.returns
    have h2 := b1.returns
    have h3 := b1.idle.committed
    cases hx : (ModelOp.initialise n.toNat minDocs fields luck.shuffle).exec none (Conn.fresh db) with
    | mk c' v =>
      rw [hx] at h1 h2 h3
      dsimp only at h1 h2 h3
      subst h1
      dsimp only
      cases hy : (refineClusters (luck.score { iterations := iterations, minFeatures := 1 }) luck.chance
          { iterations := iterations, minFeatures := 1 }).exec none c' with
      | mk c'' v' =>
        rw [hy] at h2 h3
        dsimp only at h2 h3
        subst h2
        simp [Conn.close, h3]
  rw [hr]
  exact ⟨rfl, c1, c2, c3, c4 rfl (.inl rfl)⟩

/-- The actions on the example model, which is settled (`demoModel_settled`); the features 1 and 2 exist. -/
example : ((Action.merge [0, 5]).perform demoLuck (fun _ => none) demoModel).2 = .cluster 0 ∧
    ((Action.create [1, 2]).perform demoLuck (fun _ => none) demoModel).2 = .cluster 6 ∧
    clusterIds ((Action.create [1, 2]).perform demoLuck (fun _ => none) demoModel).1 = [5, 6] ∧
    clusterIds ((Action.delete [5] (some 0)).perform demoLuck (fun _ => none) demoModel).1 = [0] ∧
    ((Action.refine [5] none 10 1 true).perform demoLuck (fun _ => none) demoModel).2 = .cluster 5 ∧
    ((Action.recreateModel [] 1 2 10 1).perform demoLuck (fun _ => none) demoModel).2 = .index none := by decide +kernel

/-! ## Where the property fails -/

/-- **C59, refutation.** `refine` without a cluster refines the whole model, then answers with an error: here the request fails
though the stored assignment has changed. -/
theorem failed_request_changed_model :
    let db := (execAll (groups [[1, 3, 5], [2, 4, 6]]) (Conn.fresh refineIndex)).committed
    let r := (Action.refine [] none 10 1 true).perform demoLuck (fun _ => none) db
    r.2 = .failed .indexError ∧ assignments db ≠ assignments r.1 := by decide +kernel

/-- **C59, refutation.** `recreate_model` with no iterations fails after the old model was replaced. -/
theorem failed_recreate_loses_model :
    let db := (execAll (groups [[1, 3, 5], [2, 4, 6]]) (Conn.fresh refineIndex)).committed
    let r := (Action.recreateModel [] 10 64 0 1).perform demoLuck (fun _ => none) db
    r.2 = .failed .valueError ∧ assignments db = [(1, 1), (3, 1), (5, 1), (2, 2), (4, 2), (6, 2)] ∧ assignments r.1 = [] := by
  decide +kernel

/-- Does the action redirect to a cluster that does not exist then? -/
def redirectMissing (db : DB) (a : Action) : Bool :=
  match a.perform demoLuck (fun _ => none) db with
  | (db', .cluster c) => decide (c ∉ clusterIds db')
  | _ => false

/-- **C59, refutation.** Redirects to clusters that are not there any more: after dissolving the cluster, removing its last
feature, deleting it, or creating one without features. -/
theorem redirects_to_missing :
    let db := (execAll (groups [[1, 3, 5], [2, 4], [6]]) (Conn.fresh refineIndex)).committed
    redirectMissing db (.removeFeatures [6] (some 3)) = true ∧ redirectMissing db (.delete [3] (some 3)) = true ∧
    redirectMissing db (.create []) = true ∧ redirectMissing db (.refine [3, 1, 2] (some 1) 10 1 true) = true ∧
    redirectMissing db (.refine [3, 1, 2] none 10 1 true) = false := by
  decide +kernel

/-! ## Search -/

/-- **C60.** The search finds every feature whose value is a text, by its field and value. -/
theorem search_finds_text_partial (db : DB) (h : Wellformed db) (field value : String) (f : Nat) :
    search db field value = .ok f ↔ ∃ r ∈ db.features, r.fid = f ∧ r.field = field ∧ r.value = .text value := by
  obtain ⟨h1, -, -, -⟩ := lookups_inverse_partial db h
  unfold search
  rw [← h1]
  unfold lookupFeature
  cases hx : db.feature? f with
  | none =>
    constructor
    · intro hh; cases hh
    · rintro ⟨r, hr, e1, -⟩
      have := (feature?_eq_some h f r).2 ⟨hr, e1⟩
      rw [hx] at this; cases this
  | some r =>
    have hr := (feature?_eq_some h f r).1 hx
    constructor
    · intro hh
      have h2 : (r.field, r.value) = (field, Val.text value) := by simpa using hh
      simp only [Prod.mk.injEq] at h2
      exact ⟨r, hr.1, hr.2, h2.1, h2.2⟩
    · rintro ⟨r', hr', e1, e2, e3⟩
      have := (feature?_eq_some h f r').2 ⟨hr', e1⟩
      rw [hx] at this; cases this
      simp [e2, e3]

/-- **C60, refutation.** A feature whose value is a number is never found. -/
theorem search_misses_numbers (db : DB) (h : Wellformed db) (r : FeatRow) (hr : r ∈ db.features) (n : Int)
    (hn : r.value = .int n) (value : String) : search db r.field value ≠ .ok r.fid := by
  intro hh
  obtain ⟨r', hr', e1, -, e3⟩ := (search_finds_text_partial db h _ _ _).1 hh
  have h1 := (feature?_eq_some h r.fid r).2 ⟨hr, rfl⟩
  have h2 := (feature?_eq_some h r.fid r').2 ⟨hr', e1⟩
  rw [h1] at h2
  cases h2
  rw [hn] at e3
  cases e3

end Hyperreal.Props
