import Verif.Lemmas.Assign

/-!
# Properties of the clustering model (C15, C16, C18, C19, C20, C21)

`ModelOp.exec fault op c` executes a public call, through the `atomic` decorator, on the connection `c`;
`fault` is an exception from the worker pool during housekeeping (`none`: no fault).
-/

namespace Hyperreal.Props
open Spec DB Atomic

/-- A small index with two documents and three features, without a model. -/
def demoDb : DB :=
  { docKeys := [(0, .text "x"), (1, .text "y")]
    features := [⟨1, "text", .text "a", 2, {0, 1}⟩, ⟨2, "text", .text "b", 1, {1}⟩, ⟨3, "user", .text "u", 1, {0}⟩]
    fieldSummary := [⟨"text", 2, .text "a", .text "b", 0⟩, ⟨"user", 1, .text "u", .text "u", 0⟩] }

/-- The demo index is a settled database: the hypotheses of the theorems below are met. -/
theorem demoDb_settled : Settled demoDb where
  featureIds := by decide
  featureKeys := by decide
  counts := by decide
  oneCluster := by decide
  clusterIds := by decide
  knownFeature := by simp [demoDb]
  knownCluster := by simp [demoDb]
  summaries := by simp [demoDb]
  nothingPending := rfl

/-- The demo index with a model: cluster 0 = {1}, cluster 5 = {2, 3}, feature 2 pinned, cluster 5 pinned. -/
def demoModel : DB :=
  { demoDb with
    fc := [⟨1, 0, 2, false⟩, ⟨2, 5, 1, true⟩, ⟨3, 5, 1, false⟩]
    clusters := [{ cid := 0, featureCount := 1, docsCount := 2, weight := 2, docs := some {0, 1} },
                 { cid := 5, featureCount := 2, docsCount := 2, weight := 2, docs := some {0, 1}, pinned := true }] }

theorem demoModel_settled : Settled demoModel where
  featureIds := by decide
  featureKeys := by decide
  counts := by decide
  oneCluster := by decide
  clusterIds := by decide
  knownFeature := by decide
  knownCluster := by decide
  summaries := by
    intro k hk
    simp only [demoModel, List.mem_cons, List.not_mem_nil, or_false] at hk
    rcases hk with rfl | rfl
    · refine ⟨by decide, by decide, ⟨{0, 1}, rfl, by decide, ?_⟩, by decide⟩
      intro d
      constructor
      · intro hd
        exact ⟨⟨1, 0, 2, false⟩, by decide, rfl, by simpa [demoModel, demoDb, docsOf, feature?] using hd⟩
      · rintro ⟨r, hr, hc, hd⟩
        simp only [demoModel, List.mem_cons, List.not_mem_nil, or_false] at hr
        rcases hr with rfl | rfl | rfl
        · simpa [demoModel, demoDb, docsOf, feature?] using hd
        · simp at hc
        · simp at hc
    · refine ⟨by decide, by decide, ⟨{0, 1}, rfl, by decide, ?_⟩, by decide⟩
      intro d
      constructor
      · intro hd
        simp only [Finset.mem_insert, Finset.mem_singleton] at hd
        rcases hd with rfl | rfl
        · exact ⟨⟨3, 5, 1, false⟩, by decide, rfl, by decide⟩
        · exact ⟨⟨2, 5, 1, true⟩, by decide, rfl, by decide⟩
      · rintro ⟨r, hr, hc, hd⟩
        simp only [demoModel, List.mem_cons, List.not_mem_nil, or_false] at hr
        rcases hr with rfl | rfl | rfl
        · simp at hc
        · simp [demoModel, demoDb, docsOf, feature?] at hd; simp [hd]
        · simp [demoModel, demoDb, docsOf, feature?] at hd; simp [hd]
  nothingPending := rfl

/-- A connection in one of the two states it can be in between public calls: idle, or (after a failure of the
housekeeping) with a savepoint left open. -/
def Safe (c : Conn DB) : Prop :=
  Settled c.committed ∧ (∀ x ∈ c.seen, Settled x) ∧ (Idle c c.committed ∨ (c.stack ≠ [] ∧ c.level = 0))

/-- Public calls one after another, each possibly with a fault of the worker pool. -/
def runOps (ops : List (ModelOp × Option Err)) (c : Conn DB) : Conn DB :=
  ops.foldl (fun c op => (op.1.exec op.2 c).1) c

theorem safe_step (op : ModelOp) (fault : Option Err) (hv : op.Valid) (c : Conn DB) (hc : Safe c) :
    Safe (op.exec fault c).1 ∧ (fault = none → Idle c c.committed → Idle (op.exec fault c).1 (op.exec fault c).1.committed) := by
  obtain ⟨hs, hseen, hcase⟩ := hc
  by_cases hidle : Idle c c.committed
  · have hreps : ∀ n, ∀ x ∈ List.replicate n c.committed ++ c.seen, Settled x := by
      intro n x hx
      rcases List.mem_append.1 hx with h | h
      · rw [List.eq_of_mem_replicate h]; exact hs
      · exact hseen x h
    rcases method_cases op hv (Settled.toPending hs) with ⟨d, v, he, hP, hf, ht⟩ | ⟨d, e, he, ht, hx⟩
    · obtain ⟨n, seen', rfl, h⟩ := callMethod_top (updateChanged fault) op.method.1 op.method.2.1 op.method.2.2 c
        c.committed hidle _ _ he
      simp only [endHk, endChanged, ht, if_true, endContent] at h
      cases fault with
      | none =>
        obtain ⟨db', h1, h2, -⟩ := updateChanged_spec hP (show c.committed.features = d.features from hf.symm)
        rw [h1] at h
        simp only at h
        simp only [ModelOp.exec]
        rw [h]
        refine ⟨⟨h2, ?_, Or.inl ⟨rfl, rfl, rfl, rfl, rfl, rfl⟩⟩, fun _ _ => ⟨rfl, rfl, rfl, rfl, rfl, rfl⟩⟩
        intro x hx
        rcases List.mem_cons.1 hx with rfl | hx
        · exact h2
        · exact hreps n x hx
      | some e =>
        simp only [updateChanged] at h
        simp only [ModelOp.exec]
        rw [show updateChanged (some e) = fun c d => (d.refreshCounts, some e) from rfl] 
        rw [show (updateChanged (some e)) = fun c d => (d.refreshCounts, some e) from rfl] at h
        rw [h]
        exact ⟨⟨hs, hreps n, Or.inr ⟨by simp, rfl⟩⟩, by simp⟩
    · obtain ⟨n, seen', rfl, h⟩ := callMethod_top (updateChanged fault) op.method.1 op.method.2.1 op.method.2.2 c
        c.committed hidle _ _ he
      have hcont : endContent (V := Ret) c.committed d (.error e) = c.committed := by
        simp only [endContent]
        rcases hx with hx | rfl
        · simp [hx]
        · simp
      simp only [endHk, endChanged, ht, Bool.false_eq_true, if_false, hcont] at h
      simp only [ModelOp.exec]
      rw [h]
      refine ⟨⟨hs, ?_, Or.inl ⟨rfl, rfl, rfl, rfl, rfl, rfl⟩⟩, fun _ _ => ⟨rfl, rfl, rfl, rfl, rfl, rfl⟩⟩
      intro x hx
      rcases List.mem_cons.1 hx with rfl | hx
      · exact hs
      · exact hreps n x hx
  · rcases hcase with h | ⟨h1, h2⟩
    · exact absurd h hidle
    · obtain ⟨e1, e2, e3, n, e4⟩ := atomic_never_durable_again (updateChanged fault) op.method.1 op.method.2.1
        op.method.2.2 c h1 h2
      refine ⟨⟨?_, ?_, Or.inr ⟨e2, e3⟩⟩, fun _ h => absurd h hidle⟩
      · simp only [ModelOp.exec]; rw [e1]; exact hs
      · intro x hx
        simp only [ModelOp.exec] at hx
        rw [e4] at hx
        rcases List.mem_append.1 hx with h | h
        · rw [List.eq_of_mem_replicate h]; exact hs
        · exact hseen x h

/-- **C15.** For every sequence of public calls that edit the model — successful or failing, with any arguments, any
shuffle, any result of the refinement, and any failures of the worker pool in between — everything that is ever
visible to other connections (and so everything a crash can leave behind) is a settled database: every cluster has a
feature, its feature count, document set, document count and weight are exactly those of its features, and nothing is
pending.  Without pool failures the connection itself is idle on that content. -/
theorem model_always_settled (ops : List (ModelOp × Option Err)) (hv : ∀ op ∈ ops, op.1.Valid)
    (db : DB) (hdb : Settled db) :
    Settled (runOps ops (Conn.fresh db)).committed ∧
    (∀ x ∈ (runOps ops (Conn.fresh db)).seen, Settled x) ∧
    ((∀ op ∈ ops, op.2 = none) →
      Idle (runOps ops (Conn.fresh db)) (runOps ops (Conn.fresh db)).committed) := by
  have gen : ∀ (ops : List (ModelOp × Option Err)) (c : Conn DB), (∀ op ∈ ops, op.1.Valid) → Safe c →
      Safe (runOps ops c) ∧ ((∀ op ∈ ops, op.2 = none) → Idle c c.committed →
        Idle (runOps ops c) (runOps ops c).committed) := by
    intro ops
    induction ops with
    | nil => intro c _ hc; exact ⟨hc, fun _ h => h⟩
    | cons op ops ih =>
      intro c hv hc
      obtain ⟨h1, h2⟩ := safe_step op.1 op.2 (hv op (by simp)) c hc
      obtain ⟨h3, h4⟩ := ih (op.1.exec op.2 c).1 (fun o ho => hv o (by simp [ho])) h1
      refine ⟨h3, fun hf hi => h4 (fun o ho => hf o (by simp [ho])) (h2 (hf op (by simp)) hi)⟩
  have hi : Idle (Conn.fresh db) db := ⟨rfl, rfl, rfl, rfl, rfl, rfl⟩
  obtain ⟨⟨h1, h2, -⟩, h3⟩ := gen ops (Conn.fresh db) hv ⟨hdb, by simp [Conn.fresh], Or.inl hi⟩
  exact ⟨h1, h2, fun hf => h3 hf hi⟩

/-- The hypotheses are met by a history that initialises, merges, fails and edits. -/
example : ∀ op ∈ [(ModelOp.initialise 2 1 [] id, none), (ModelOp.merge [], none), (ModelOp.merge [0, 1], none),
    (ModelOp.create [1, 7], none), (ModelOp.deleteFeatures [2], some Err.worker)], op.1.Valid := by
  simp [ModelOp.Valid]

/-- Histories do something: merging the clusters of the demo model, failing once, and removing a feature. -/
example : ((runOps [(ModelOp.merge [5, 0], none), (ModelOp.create [1, 7], none), (ModelOp.deleteFeatures [2], none)]
    (Conn.fresh demoModel)).committed.fc.map (fun r => (r.fid, r.cid))) = [(1, 5), (3, 5)] := by
  decide +kernel

/-- **C16.** In everything ever visible, a feature belongs to at most one cluster, that cluster exists, and the feature
exists in the index. -/
theorem one_cluster_always (ops : List (ModelOp × Option Err)) (hv : ∀ op ∈ ops, op.1.Valid) (db : DB)
    (hdb : Settled db) (x : DB) (hx : x = (runOps ops (Conn.fresh db)).committed ∨ x ∈ (runOps ops (Conn.fresh db)).seen)
    (r : FCRow) (hr : r ∈ x.fc) :
    (∀ r' ∈ x.fc, r'.fid = r.fid → r' = r) ∧ hasCluster x r.cid ∧ ∃ f ∈ x.features, f.fid = r.fid := by
  obtain ⟨h1, h2, -⟩ := model_always_settled ops hv db hdb
  have hs : Settled x := by
    rcases hx with rfl | hx
    · exact h1
    · exact h2 x hx
  refine ⟨?_, hs.knownCluster r hr, ?_⟩
  · intro r' hr' e
    have a := (find?_some_iff hs.oneCluster r.fid r).2 ⟨hr, rfl⟩
    have b := (find?_some_iff hs.oneCluster r.fid r').2 ⟨hr', e⟩
    rw [a] at b
    exact (Option.some.inj b).symm
  · obtain ⟨f, hf, h, -⟩ := hs.knownFeature r hr; exact ⟨f, hf, h⟩

/-! ## Edits as operations on the map feature ↦ cluster -/

/-- What is common to all edits: they succeed, leave the connection idle on a settled database with the same index. -/
structure EditOk (op : ModelOp) (c : Conn DB) (db db' : DB) (v : Ret) : Prop where
  returns : (op.exec none c).2 = .ok v
  idle : Idle (op.exec none c).1 db'
  settled : Settled db'
  features : db'.features = db.features
  rest : db'.docKeys = db.docKeys ∧ db'.posDocMap = db.posDocMap ∧ db'.posIndex = db.posIndex ∧
    db'.fieldSummary = db.fieldSummary

theorem rest_trans {a b c : DB} (h1 : b.docKeys = a.docKeys ∧ b.posDocMap = a.posDocMap ∧ b.posIndex = a.posIndex ∧
    b.fieldSummary = a.fieldSummary) (h2 : c.docKeys = b.docKeys ∧ c.posDocMap = b.posDocMap ∧ c.posIndex = b.posIndex ∧
    c.fieldSummary = b.fieldSummary) : c.docKeys = a.docKeys ∧ c.posDocMap = a.posDocMap ∧ c.posIndex = a.posIndex ∧
    c.fieldSummary = a.fieldSummary :=
  ⟨h2.1.trans h1.1, h2.2.1.trans h1.2.1, h2.2.2.1.trans h1.2.2.1, h2.2.2.2.trans h1.2.2.2⟩

/-- **C19, `delete_clusters`.** Exactly the features of the given clusters leave the model; all others stay where they are,
with their pins; remaining clusters keep their pins. -/
theorem delete_clusters_spec (cids : List Int) (c : Conn DB) (db : DB) (hc : Idle c db) (hs : Settled db) :
    ∃ db', EditOk (.deleteClusters cids) c db db' .none ∧
      (∀ f, assign db' f = (assign db f).filter (fun x => x ∉ cids)) ∧
      (∀ f, (assign db' f).isSome → featurePin db' f = featurePin db f) ∧
      (∀ x, hasCluster db' x ↔ hasCluster db x ∧ x ∉ cids) ∧
      (∀ x, hasCluster db' x → clusterPin db' x = clusterPin db x) := by
  obtain ⟨d, he, hP, hK, hfc⟩ := eval_deleteClusters cids (Settled.toPending hs)
  obtain ⟨db', h1, h2, h3, h4, h5, h6, h7, -⟩ := exec_ok (.deleteClusters cids) c db d _ hc hs he hP hK.features
    (by simp [ModelOp.method])
  have hassign : ∀ f, assign db' f = (assign db f).filter (fun x => x ∉ cids) := by
    intro f
    simp only [assign, h5, hfc, find?_filter_fid _ hs.oneCluster]
    cases db.fc.find? (fun r => r.fid = f) with
    | none => rfl
    | some r =>
      by_cases hm : r.cid ∈ cids <;> simp [Option.filter, hm]
  have hhas : ∀ x, hasCluster db' x ↔ hasCluster db x ∧ x ∉ cids := by
    intro x
    rw [hasCluster_iff_assign h3, hasCluster_iff_assign hs]
    simp only [hassign, Option.filter_eq_some_iff, decide_eq_true_eq]
    exact ⟨fun ⟨f, a, b⟩ => ⟨⟨f, a⟩, b⟩, fun ⟨⟨f, a⟩, b⟩ => ⟨f, a, b⟩⟩
  refine ⟨db', ⟨h1, h2, h3, h4, rest_trans hK.rest h6⟩, hassign, ?_, hhas, ?_⟩
  · intro f hf
    simp only [assign, featurePin, h5, hfc, find?_filter_fid _ hs.oneCluster] at hf ⊢
    cases hfind : db.fc.find? (fun r => r.fid = f) with
    | none => rfl
    | some r =>
      rw [hfind] at hf
      by_cases hm : r.cid ∈ cids
      · simp [Option.filter, hm] at hf
      · simp [Option.filter, hm]
  · intro x hx
    rw [clusterPin_after (Settled.toPending hs) hK h3 h7 x hx]
    obtain ⟨k, hk, e⟩ := ((hhas x).1 hx).1
    rw [(clusterPin_some_iff hs.clusterIds x k.pinned).2 ⟨k, hk, e, rfl⟩]; rfl

example : (((ModelOp.deleteClusters [5]).exec none (Conn.fresh demoModel)).1.committed.fc.map (·.fid)) = [1] := by
  decide +kernel

/-- **C19, `delete_features`.** Exactly the given features leave the model. -/
theorem delete_features_spec (fids : List Nat) (c : Conn DB) (db : DB) (hc : Idle c db) (hs : Settled db) :
    ∃ db', EditOk (.deleteFeatures fids) c db db' .none ∧
      (∀ f, assign db' f = if f ∈ fids then none else assign db f) ∧
      (∀ f, f ∉ fids → featurePin db' f = featurePin db f) ∧
      (∀ x, hasCluster db' x → hasCluster db x ∧ clusterPin db' x = clusterPin db x) := by
  obtain ⟨d, he, hP, hK, hfc⟩ := eval_deleteFeatures fids (Settled.toPending hs)
  obtain ⟨db', h1, h2, h3, h4, h5, h6, h7, -⟩ := exec_ok (.deleteFeatures fids) c db d _ hc hs he hP hK.features
    (by simp [ModelOp.method])
  have hfind : ∀ f, db'.fc.find? (fun r => r.fid = f) =
      if f ∈ fids then none else db.fc.find? (fun r => r.fid = f) := by
    intro f
    rw [h5, hfc, find?_filter_fid _ hs.oneCluster]
    cases hfd : db.fc.find? (fun r => r.fid = f) with
    | none => simp
    | some r =>
      have hrf : r.fid = f := by simpa using List.find?_some hfd
      by_cases hm : f ∈ fids <;> simp [Option.filter, hrf, hm]
  have hassign : ∀ f, assign db' f = if f ∈ fids then none else assign db f := by
    intro f; simp only [assign, hfind]; split <;> rfl
  refine ⟨db', ⟨h1, h2, h3, h4, rest_trans hK.rest h6⟩, hassign, ?_, ?_⟩
  · intro f hf; simp only [featurePin, hfind, hf, if_false]
  · intro x hx
    have hold : hasCluster db x := by
      rw [hasCluster_iff_assign h3] at hx
      rw [hasCluster_iff_assign hs]
      obtain ⟨f, hf⟩ := hx
      rw [hassign] at hf
      split at hf
      · cases hf
      · exact ⟨f, hf⟩
    refine ⟨hold, ?_⟩
    rw [clusterPin_after (Settled.toPending hs) hK h3 h7 x hx]
    obtain ⟨k, hk, e⟩ := hold
    rw [(clusterPin_some_iff hs.clusterIds x k.pinned).2 ⟨k, hk, e, rfl⟩]; rfl

example : (((ModelOp.deleteFeatures [2, 99]).exec none (Conn.fresh demoModel)).1.committed.fc.map (·.fid)) = [1, 3] := by
  decide +kernel

/-- **C19, `merge_clusters`.** The features of all the given clusters end in the first one; nothing else moves; pins of
features stay; and the first id is returned. -/
theorem merge_clusters_spec (target : Int) (rest : List Int) (c : Conn DB) (db : DB) (hc : Idle c db)
    (hs : Settled db) :
    ∃ db', EditOk (.merge (target :: rest)) c db db' (.id target) ∧
      (∀ f, assign db' f = (assign db f).map (fun x => if x ∈ rest then target else x)) ∧
      (∀ f, featurePin db' f = featurePin db f) ∧
      (∀ x, hasCluster db' x → clusterPin db' x = some ((clusterPin db x).getD false)) := by
  obtain ⟨d, T, he, hP, hK, hfc, hT⟩ := eval_merge target rest (Settled.toPending hs)
  obtain ⟨db', h1, h2, h3, h4, h5, h6, h7, -⟩ := exec_ok (.merge (target :: rest)) c db d _ hc hs he hP hK.features
    (by simp [ModelOp.method])
  refine ⟨db', ⟨h1, h2, h3, h4, rest_trans hK.rest h6⟩, ?_, ?_, fun x hx => clusterPin_after (Settled.toPending hs) hK h3 h7 x hx⟩
  · intro f
    simp only [assign, h5, hfc, find?_map_fid (fun r => (hT r).1), Option.map_map]
    congr 1
    funext r
    simp only [Function.comp, (hT r).2.2]
  · intro f
    simp only [featurePin, h5, hfc, find?_map_fid (fun r => (hT r).1), Option.map_map]
    congr 1
    funext r
    simp only [Function.comp, (hT r).2.1]

/-- `merge_clusters([])` raises `IndexError` and changes nothing. -/
theorem merge_clusters_empty (c : Conn DB) (db : DB) (hc : Idle c db) (hs : Settled db) :
    ((ModelOp.merge []).exec none c).2 = .error .indexError ∧ Idle ((ModelOp.merge []).exec none c).1 db := by
  obtain ⟨h1, h2, -⟩ := exec_err (.merge []) c db db .indexError hc hs rfl rfl (by rw [updateChanged_settled hs])
  exact ⟨h1, h2⟩

example : (((ModelOp.merge [0, 5]).exec none (Conn.fresh demoModel)).1.committed.clusters.map (·.cid)) = [0] := by
  decide +kernel

/-- **C19 and C20, `create_cluster_from_features`.** For features that exist in the index: the returned id is greater than
every existing cluster id (and positive when there is no cluster), exactly the given features move to it, and the pins of
features that were in the model stay. -/
theorem create_cluster_spec (fids : List Nat) (c : Conn DB) (db : DB) (hc : Idle c db) (hs : Settled db)
    (hk : ∀ f ∈ fids, ∃ fr ∈ db.features, fr.fid = f) :
    ∃ db' new, EditOk (.create fids) c db db' (.id new) ∧
      (∀ x, hasCluster db x → x < new) ∧
      (∀ f, assign db' f = if f ∈ fids then some new else assign db f) ∧
      (∀ f, assign db' f = some new ↔ f ∈ fids) ∧
      (∀ f, featurePin db' f = if f ∈ fids then some ((featurePin db f).getD false) else featurePin db f) ∧
      (∀ x, hasCluster db' x → clusterPin db' x = some ((clusterPin db x).getD false)) := by
  obtain ⟨d, new, T, he, hP, hK, hfc, hnew, hin, hT⟩ := (eval_create fids (Settled.toPending hs)).1 hk
  obtain ⟨db', h1, h2, h3, h4, h5, h6, h7, -⟩ := exec_ok (.create fids) c db d _ hc hs he hP hK.features
    (by simp [ModelOp.method])
  have hnd : ((db.fc ++ new).map (·.fid)).Nodup := by
    have := hP.oneCluster
    rw [hfc, List.map_map] at this
    rwa [show ((fun r : FCRow => r.fid) ∘ T) = (·.fid) from funext fun r => (hT r).1] at this
  have hfind : ∀ f, db'.fc.find? (fun r => r.fid = f) = ((db.fc ++ new).find? (fun r => r.fid = f)).map T := by
    intro f; rw [h5, hfc, find?_map_fid (fun r => (hT r).1)]
  have hfresh : ∀ x, hasCluster db x → x < nextClusterId db := by
    rintro x ⟨k, hk, rfl⟩; exact nextClusterId_fresh db k hk
  have hassign : ∀ f, assign db' f = if f ∈ fids then some (nextClusterId db) else assign db f := by
    intro f
    by_cases hf : f ∈ fids
    · obtain ⟨r, hr, hrf⟩ := hin f hf
      simp only [assign, hfind, (find?_some_iff hnd f r).2 ⟨hr, hrf⟩, Option.map_some, (hT r).2.2, hrf, hf, if_true]
    · simp only [assign, hfind, hf, if_false, List.find?_append]
      have : new.find? (fun r => r.fid = f) = none := by
        rw [List.find?_eq_none]
        intro r hr
        simp only [decide_eq_true_eq]
        rintro rfl
        exact hf (hnew r hr).1
      rw [this, Option.or_none]
      cases hfd : db.fc.find? (fun r => r.fid = f) with
      | none => rfl
      | some r =>
        have hrf : r.fid = f := by simpa using List.find?_some hfd
        simp [(hT r).2.2, hrf, hf]
  refine ⟨db', nextClusterId db, ⟨h1, h2, h3, h4, rest_trans hK.rest h6⟩, hfresh, hassign, ?_, ?_,
    fun x hx => clusterPin_after (Settled.toPending hs) hK h3 h7 x hx⟩
  · intro f
    rw [hassign]
    split
    · simp [*]
    · rename_i hf
      simp only [hf, iff_false]
      intro h
      have := hfresh (nextClusterId db) ((hasCluster_iff_assign hs _).2 ⟨f, h⟩)
      omega
  · intro f
    simp only [featurePin, hfind, List.find?_append]
    by_cases hf : f ∈ fids
    · simp only [hf, if_true]
      cases hfd : db.fc.find? (fun r => r.fid = f) with
      | some r => simp [(hT r).2.1]
      | none =>
        obtain ⟨r, hr, hrf⟩ := hin f hf
        have := (find?_some_iff hnd f r).2 ⟨hr, hrf⟩
        rw [List.find?_append, hfd, Option.none_or] at this
        rw [Option.none_or, this]
        have hrn : r ∈ new := List.mem_of_find?_eq_some this
        simp [(hT r).2.1, (hnew r hrn).2.2]
    · simp only [hf, if_false]
      have : new.find? (fun r => r.fid = f) = none := by
        rw [List.find?_eq_none]
        intro r hr
        simp only [decide_eq_true_eq]
        rintro rfl
        exact hf (hnew r hr).1
      rw [this, Option.or_none]
      cases db.fc.find? (fun r => r.fid = f) with
      | none => rfl
      | some r => simp [(hT r).2.1]

example : ∀ f ∈ [1, 2], ∃ fr ∈ demoModel.features, fr.fid = f := by decide
example : (((ModelOp.create [1, 2]).exec none (Conn.fresh demoModel)).1.committed.fc.map (fun r => (r.fid, r.cid))) =
    [(1, 6), (2, 6), (3, 5)] := by decide +kernel

/-- **C19/C20, error case.** Naming a feature that is not in the index raises `IntegrityError` and changes nothing. -/
theorem create_cluster_unknown (fids : List Nat) (c : Conn DB) (db : DB) (hc : Idle c db) (hs : Settled db)
    (f : Nat) (hf : f ∈ fids) (hno : ∀ fr ∈ db.features, fr.fid ≠ f) :
    ((ModelOp.create fids).exec none c).2 = .error .integrity ∧ Idle ((ModelOp.create fids).exec none c).1 db := by
  obtain ⟨d, he⟩ := (eval_create fids (Settled.toPending hs)).2 f hf hno
  have hcase := method_cases (.create fids) trivial (Settled.toPending hs)
  rcases hcase with ⟨d', v, he', -⟩ | ⟨d', e, he', ht, -⟩
  · simp only [ModelOp.method] at he'; rw [he] at he'; cases he'
  · have h := callMethod_top (updateChanged none) "create_cluster_from_features" true (createCluster fids) c db hc _ _ he
    obtain ⟨n, seen', hseen, h⟩ := h
    simp only [ModelOp.method] at ht
    simp only [endHk, endChanged, ht, Bool.false_eq_true, if_false, endContent, Err.isException, if_true] at h
    simp only [ModelOp.exec, ModelOp.method]
    rw [h]
    exact ⟨rfl, ⟨rfl, rfl, rfl, rfl, rfl, rfl⟩⟩

/-- **C20, `next_cluster_id`.** It is greater than every existing cluster id. -/
theorem next_cluster_id_fresh (db : DB) (x : Int) (h : hasCluster db x) : x < nextClusterId db := by
  obtain ⟨k, hk, rfl⟩ := h; exact nextClusterId_fresh db k hk

/-- **C21, `pin_features`.** Exactly the pins of the named features that are in the model change; assignments, clusters
and their pins do not. -/
theorem pin_features_spec (fids : List Nat) (b : Bool) (c : Conn DB) (db : DB) (hc : Idle c db) (hs : Settled db) :
    ∃ db', EditOk (.pinFeatures fids b) c db db' .none ∧
      (∀ f, assign db' f = assign db f) ∧
      (∀ f, featurePin db' f = (featurePin db f).map (fun p => if f ∈ fids then b else p)) ∧
      (∀ x, clusterPin db' x = clusterPin db x) := by
  obtain ⟨d, he, hP, rfl⟩ := eval_pinFeatures fids b (Settled.toPending hs)
  obtain ⟨db', h1, h2, h3, h4, h5, h6, h7, h8, -⟩ := exec_ok (.pinFeatures fids b) c db _ _ hc hs he hP rfl
    (by simp [ModelOp.method])
  have hT : ∀ r : FCRow, (if r.fid ∈ fids then { r with pinned := b } else r).fid = r.fid := by
    intro r; split <;> rfl
  have hTc : ∀ r : FCRow, (if r.fid ∈ fids then { r with pinned := b } else r).cid = r.cid := by
    intro r; split <;> rfl
  have hassign : ∀ f, assign db' f = assign db f := by
    intro f
    simp only [assign, h5]
    rw [find?_map_fid hT, Option.map_map]
    congr 1
    funext r; simp only [Function.comp, hTc]
  refine ⟨db', ⟨h1, h2, h3, h4, h6⟩, hassign, ?_, ?_⟩
  · intro f
    simp only [featurePin, h5]
    rw [find?_map_fid hT, Option.map_map, Option.map_map]
    cases hfd : db.fc.find? (fun r => r.fid = f) with
    | none => rfl
    | some r =>
      have hrf : r.fid = f := by simpa using List.find?_some hfd
      simp only [Option.map_some, Function.comp, hrf]
      split <;> rfl
  · intro x
    have hiff : ∀ y, hasCluster db' y ↔ hasCluster db y := by
      intro y; rw [hasCluster_iff_assign h3, hasCluster_iff_assign hs]; simp only [hassign]
    cases hp : clusterPin db x with
    | some p =>
      obtain ⟨k, hk, e1, e2⟩ := (clusterPin_some_iff hs.clusterIds x p).1 hp
      obtain ⟨k', hk', e3⟩ := (hiff x).2 ⟨k, hk, e1⟩
      obtain ⟨k0, hk0, e4, e5⟩ := h7 k' hk'
      have := (clusterPin_some_iff hs.clusterIds x k0.pinned).2 ⟨k0, hk0, e4.trans e3, rfl⟩
      rw [hp] at this
      rw [(clusterPin_some_iff h3.clusterIds x k'.pinned).2 ⟨k', hk', e3, rfl⟩, ← e5, this]
    | none =>
      cases hp' : clusterPin db' x with
      | none => rfl
      | some p =>
        obtain ⟨k, hk, e1, -⟩ := (clusterPin_some_iff h3.clusterIds x p).1 hp'
        obtain ⟨k0, hk0, e2⟩ := (hiff x).1 ⟨k, hk, e1⟩
        rw [(clusterPin_some_iff hs.clusterIds x k0.pinned).2 ⟨k0, hk0, e2, rfl⟩] at hp
        cases hp

/-- **C21, `pin_clusters`.** Exactly the pins of the named existing clusters change. -/
theorem pin_clusters_spec (cids : List Int) (b : Bool) (c : Conn DB) (db : DB) (hc : Idle c db) (hs : Settled db) :
    ∃ db', EditOk (.pinClusters cids b) c db db' .none ∧
      (∀ f, assign db' f = assign db f) ∧ (∀ f, featurePin db' f = featurePin db f) ∧
      (∀ x, clusterPin db' x = (clusterPin db x).map (fun p => if x ∈ cids then b else p)) := by
  obtain ⟨d, he, hP, rfl⟩ := eval_pinClusters cids b (Settled.toPending hs)
  obtain ⟨db', h1, h2, h3, h4, h5, h6, h7, h8, -⟩ := exec_ok (.pinClusters cids b) c db _ _ hc hs he hP rfl
    (by simp [ModelOp.method])
  have hassign : ∀ f, assign db' f = assign db f := by
    intro f; simp only [assign, h5]
  refine ⟨db', ⟨h1, h2, h3, h4, h6⟩, hassign, fun f => by simp only [featurePin, h5], ?_⟩
  intro x
  have hiff : hasCluster db' x ↔ hasCluster db x := by
    rw [hasCluster_iff_assign h3, hasCluster_iff_assign hs]; simp only [hassign]
  cases hp : clusterPin db x with
  | some p =>
    obtain ⟨k, hk, e1, e2⟩ := (clusterPin_some_iff hs.clusterIds x p).1 hp
    obtain ⟨k', hk', e3⟩ := hiff.2 ⟨k, hk, e1⟩
    obtain ⟨k0, hk0, e4, e5⟩ := h7 k' hk'
    obtain ⟨k1, hk1, rfl⟩ := List.mem_map.1 hk0
    have hk1c : k1.cid = x := by
      have : (if k1.cid ∈ cids then { k1 with pinned := b } else k1).cid = k1.cid := by split <;> rfl
      rw [← this, e4, e3]
    have hk1p : k1.pinned = p := by
      have := (clusterPin_some_iff hs.clusterIds x k1.pinned).2 ⟨k1, hk1, hk1c, rfl⟩
      rw [hp] at this; exact (Option.some.inj this).symm
    rw [(clusterPin_some_iff h3.clusterIds x k'.pinned).2 ⟨k', hk', e3, rfl⟩, ← e5, hk1c]
    simp only [Option.map_some]
    split
    · rfl
    · rw [hk1p]
  | none =>
    cases hp' : clusterPin db' x with
    | none => rfl
    | some p =>
      obtain ⟨k, hk, e1, -⟩ := (clusterPin_some_iff h3.clusterIds x p).1 hp'
      obtain ⟨k0, hk0, e2⟩ := hiff.1 ⟨k, hk, e1⟩
      rw [(clusterPin_some_iff hs.clusterIds x k0.pinned).2 ⟨k0, hk0, e2, rfl⟩] at hp
      cases hp

example : (((ModelOp.pinClusters [0, 9] true).exec none (Conn.fresh demoModel)).1.committed.clusters.map
    (fun k => (k.cid, k.pinned))) = [(0, true), (5, true)] := by decide +kernel

/-- **C21, refinement.** Whatever the refinement computes, feature pins stay and existing clusters that continue to exist
keep their pin; the set of features in the model is unchanged (first half of C22). -/
theorem refine_keeps_pins (plan : DB → Except Err (List (Int × List Nat))) (m : List (Int × List Nat)) (c : Conn DB)
    (db : DB) (hc : Idle c db) (hs : Settled db) (hp : plan db = .ok m) :
    ∃ db', EditOk (.refine plan) c db db' .none ∧
      (∀ f, assign db' f = (assign db f).map (lastAssigned (pairsOf m) f)) ∧
      (∀ f, featurePin db' f = featurePin db f) ∧
      (∀ x, hasCluster db' x → clusterPin db' x = some ((clusterPin db x).getD false)) := by
  obtain ⟨ht, d, T, he, hP, hK, hfc, hT⟩ := (eval_refineWith plan (Settled.toPending hs)).2 m hp
  obtain ⟨db', h1, h2, h3, h4, h5, h6, h7, -⟩ := exec_ok (.refine plan) c db d _ hc hs he hP hK.features
    (by simp only [ModelOp.method, ht, Bool.true_or])
  refine ⟨db', ⟨h1, h2, h3, h4, rest_trans hK.rest h6⟩, ?_, ?_, fun x hx => clusterPin_after (Settled.toPending hs) hK h3 h7 x hx⟩
  · intro f
    simp only [assign, h5, hfc, find?_map_fid (fun r => (hT r).1), Option.map_map]
    cases hfd : db.fc.find? (fun r => r.fid = f) with
    | none => rfl
    | some r =>
      have hrf : r.fid = f := by simpa using List.find?_some hfd
      simp only [Option.map_some, Function.comp, (hT r).2.2, hrf]
  · intro f
    simp only [featurePin, h5, hfc, find?_map_fid (fun r => (hT r).1), Option.map_map]
    congr 1
    funext r
    simp only [Function.comp, (hT r).2.1]

/-! ## C18: dealing out a new model -/

/-- The fields `initialise_clusters` draws from: the given ones, or all fields of the index when none are given. -/
def dealtFields (db : DB) (fs : List String) : List String := if fs = [] then db.fieldSummary.map (·.field) else fs

/-- **C18.** For every shuffle: every feature of the chosen fields with enough documents is in the new model, and no other;
the clusters are numbered from 0, there are `n` of them or as many as there are features if those are fewer, their
sizes differ by at most one, and nothing is pinned. -/
theorem initialise_deals_evenly (n minDocs : Nat) (fs : List String) (shuffle : List (Nat × Nat) → List (Nat × Nat))
    (hsh : ∀ l, (shuffle l).Perm l) (c : Conn DB) (db : DB) (hc : Idle c db) (hs : Settled db) (hn : 0 < n)
    (hf : (dealtFields db fs).Nodup) :
    ∃ db', EditOk (.initialise n minDocs fs shuffle) c db db' .none ∧
      (∀ f, (assign db' f).isSome ↔
        ∃ r ∈ db.features, r.fid = f ∧ minDocs ≤ r.docsCount ∧ r.field ∈ dealtFields db fs) ∧
      (∀ f x, assign db' f = some x → 0 ≤ x ∧ x < n) ∧
      (∀ i j : Nat, i < n → j < n →
        db'.fc.countP (fun r => r.cid = (i : Int)) ≤ db'.fc.countP (fun r => r.cid = (j : Int)) + 1) ∧
      (∀ x, hasCluster db' x ↔ 0 ≤ x ∧ x < n ∧
        x < (db.features.countP (fun r => minDocs ≤ r.docsCount ∧ r.field ∈ dealtFields db fs) : Int)) ∧
      (∀ f, featurePin db' f ≠ some true) ∧ (∀ x, clusterPin db' x ≠ some true) := by
  have hfields : (if fs.isEmpty then db.fieldSummary.map (·.field) else fs) = dealtFields db fs := by
    cases fs <;> simp [dealtFields]
  obtain ⟨hok, -⟩ := eval_initialise n minDocs fs shuffle hsh (Settled.toPending hs)
  rw [hfields] at hok
  have hdeck : ((shuffle (selectFeatures db minDocs (dealtFields db fs))).map (·.1)).Nodup :=
    ((hsh _).map _).nodup_iff.2 (selectFeatures_nodup db minDocs _ hf hs.featureIds)
  generalize hD : shuffle (selectFeatures db minDocs (dealtFields db fs)) = deck at hok hdeck
  have hmem : ∀ x, x ∈ deck ↔
      ∃ r ∈ db.features, r.fid = x.1 ∧ r.docsCount = x.2 ∧ minDocs ≤ r.docsCount ∧ r.field ∈ dealtFields db fs := by
    intro x; rw [← hD, (hsh _).mem_iff, mem_selectFeatures]
  have hperm := dealt_snd deck n hn
  have hnd : ((dealt deck n).map (fun x => x.2.1)).Nodup := by
    have : (dealt deck n).map (fun x => x.2.1) = ((dealt deck n).map (·.2)).map (·.1) := by simp [Function.comp_def]
    rw [this, (hperm.map _).nodup_iff]; exact hdeck
  obtain ⟨d, he, hP, hfe, hre, hpins, hfc⟩ := hok hnd
  obtain ⟨db', h1, h2, h3, h4, h5, h6, h7, -⟩ := exec_ok (.initialise n minDocs fs shuffle) c db d _ hc hs he hP hfe
    (by simp [ModelOp.method])
  rw [hfc] at h5
  have hin : ∀ r, r ∈ db'.fc ↔ ∃ x ∈ dealt deck n, r = ⟨x.2.1, (x.1 : Int), x.2.2, false⟩ := by
    intro r; rw [h5, List.mem_map]
    exact ⟨fun ⟨x, a, b⟩ => ⟨x, a, b.symm⟩, fun ⟨x, a, b⟩ => ⟨x, a, b.symm⟩⟩
  have hcount : ∀ i : Nat, i < n → db'.fc.countP (fun r => r.cid = (i : Int)) = (deck.length + n - 1 - i) / n := by
    intro i hi
    rw [h5, List.countP_map, ← dealt_count deck n i hi]
    congr 1
    funext x
    simp [Int.natCast_inj]
  have hlen : deck.length = db.features.countP (fun r => minDocs ≤ r.docsCount ∧ r.field ∈ dealtFields db fs) := by
    rw [List.countP_eq_length_filter, ← List.length_map (f := (·.1)) (as := deck),
      ← List.length_map (f := FeatRow.fid)]
    apply List.Perm.length_eq
    refine (List.perm_ext_iff_of_nodup hdeck (hs.featureIds.sublist (List.filter_sublist.map _))).2 ?_
    intro a
    simp only [List.mem_map, List.mem_filter, decide_eq_true_eq]
    constructor
    · rintro ⟨x, hx, rfl⟩
      obtain ⟨r, hr, e1, e2, e3, e4⟩ := (hmem x).1 hx
      exact ⟨r, ⟨hr, e3, e4⟩, e1⟩
    · rintro ⟨r, ⟨hr, e3, e4⟩, rfl⟩
      exact ⟨(r.fid, r.docsCount), (hmem _).2 ⟨r, hr, rfl, rfl, e3, e4⟩, rfl⟩
  refine ⟨db', ⟨h1, h2, h3, h4, rest_trans hre h6⟩, ?_, ?_, ?_, ?_, ?_, ?_⟩
  · intro f
    rw [Option.isSome_iff_exists]
    constructor
    · rintro ⟨x, hx⟩
      obtain ⟨r, hr, e1, -⟩ := (assign_some_iff h3.toWellformed f x).1 hx
      obtain ⟨y, hy, rfl⟩ := (hin r).1 hr
      obtain ⟨q, hq, e2, -, e3, e4⟩ := (hmem y.2).1 (hperm.mem_iff.1 (List.mem_map.2 ⟨y, hy, rfl⟩))
      exact ⟨q, hq, e2.trans e1, e3, e4⟩
    · rintro ⟨q, hq, e1, e2, e3⟩
      have : (f, q.docsCount) ∈ deck := (hmem _).2 ⟨q, hq, e1, rfl, e2, e3⟩
      obtain ⟨y, hy, e⟩ := List.mem_map.1 (hperm.mem_iff.2 this)
      exact ⟨(y.1 : Int), (assign_some_iff h3.toWellformed f _).2 ⟨_, (hin _).2 ⟨y, hy, rfl⟩, by simp [e], rfl⟩⟩
  · intro f x hx
    obtain ⟨r, hr, -, e⟩ := (assign_some_iff h3.toWellformed f x).1 hx
    obtain ⟨y, hy, rfl⟩ := (hin r).1 hr
    have := dealt_fst_lt deck n y hy
    simp only at e
    omega
  · intro i j hi hj
    rw [hcount i hi, hcount j hj, ← Nat.add_div_right _ hn]
    exact Nat.div_le_div_right (by omega)
  · intro x
    rw [← hlen]
    have hpos : ∀ i : Nat, i < n → ((∃ r ∈ db'.fc, r.cid = (i : Int)) ↔ i < deck.length) := by
      intro i hi
      have h := hcount i hi
      have e : (∃ r ∈ db'.fc, r.cid = (i : Int)) ↔ 0 < db'.fc.countP (fun r => r.cid = (i : Int)) := by
        rw [List.countP_pos_iff]; simp
      rw [e, h, Nat.div_pos_iff]
      constructor <;> intro <;> omega
    rw [hasCluster_iff_assign h3]
    simp only [assign_some_iff h3.toWellformed]
    constructor
    · rintro ⟨f, r, hr, -, rfl⟩
      obtain ⟨y, hy, rfl⟩ := (hin r).1 hr
      have hlt := dealt_fst_lt deck n y hy
      have := (hpos y.1 hlt).1 ⟨_, hr, rfl⟩
      simp only; omega
    · rintro ⟨h0, hx, hN⟩
      obtain ⟨r, hr, e⟩ := (hpos x.toNat (by omega)).2 (by omega)
      exact ⟨r.fid, r, hr, rfl, by omega⟩
  · intro f hp
    obtain ⟨r, hr, -, e⟩ := (featurePin_some_iff h3.toWellformed f true).1 hp
    obtain ⟨y, hy, rfl⟩ := (hin r).1 hr
    cases e
  · intro x hp
    obtain ⟨k, hk, -, e⟩ := (clusterPin_some_iff h3.clusterIds x true).1 hp
    obtain ⟨k0, hk0, -, e2⟩ := h7 k hk
    rw [hpins k0 hk0] at e2
    rw [← e2] at e; cases e

/-- The hypotheses are met by the demo index, with the identity as the shuffle. -/
example : (∀ l : List (Nat × Nat), (id l).Perm l) ∧ Idle (Conn.fresh demoDb) demoDb ∧ Settled demoDb ∧
    (dealtFields demoDb []).Nodup ∧ dealtFields demoDb [] = ["text", "user"] :=
  ⟨fun _ => List.Perm.refl _, ⟨rfl, rfl, rfl, rfl, rfl, rfl⟩, demoDb_settled, by decide, by decide⟩

/-- **C18, error case.** Naming a field twice (when one of its features qualifies) makes `initialise_clusters` raise
`IntegrityError`, and the old model stays. -/
theorem initialise_duplicate_field (n minDocs : Nat) (fs : List String) (shuffle : List (Nat × Nat) → List (Nat × Nat))
    (hsh : ∀ l, (shuffle l).Perm l) (c : Conn DB) (db : DB) (hc : Idle c db) (hs : Settled db) (hn : 0 < n)
    (r : FeatRow) (hr : r ∈ db.features) (hm : minDocs ≤ r.docsCount) (hdup : 2 ≤ fs.count r.field) :
    ((ModelOp.initialise n minDocs fs shuffle).exec none c).2 = .error .integrity ∧
      Idle ((ModelOp.initialise n minDocs fs shuffle).exec none c).1 db := by
  have hfields : (if fs.isEmpty then db.fieldSummary.map (·.field) else fs) = fs := by
    cases fs <;> simp at hdup ⊢
  obtain ⟨-, hbad⟩ := eval_initialise n minDocs fs shuffle hsh (Settled.toPending hs)
  rw [hfields] at hbad
  have hnot : ¬ ((dealt (shuffle (selectFeatures db minDocs fs)) n).map (fun x => x.2.1)).Nodup := by
    intro hnd
    have e : (dealt (shuffle (selectFeatures db minDocs fs)) n).map (fun x => x.2.1) =
        ((dealt (shuffle (selectFeatures db minDocs fs)) n).map (·.2)).map (·.1) := by simp [Function.comp_def]
    rw [e, ((dealt_snd _ n hn).map _).nodup_iff, ((hsh _).map _).nodup_iff] at hnd
    have hp : ((selectFeatures db minDocs fs).map (·.1)).Perm
        ((db.features.flatMap (fun r => if minDocs ≤ r.docsCount then
          (fs.filter (fun f => f = r.field)).map (fun _ => (r.fid, r.docsCount)) else [])).map (·.1)) :=
      (List.perm_insertionSort _ _).map _
    rw [hp.nodup_iff] at hnd
    have hsub : ((fs.filter (fun f => f = r.field)).map (fun _ => r.fid)).Sublist
        ((db.features.flatMap (fun r => if minDocs ≤ r.docsCount then
          (fs.filter (fun f => f = r.field)).map (fun _ => (r.fid, r.docsCount)) else [])).map (·.1)) := by
      obtain ⟨l1, l2, hl⟩ := List.append_of_mem hr
      rw [hl]
      simp only [List.flatMap_append, List.flatMap_cons, List.map_append, hm, if_true]
      refine List.Sublist.trans ?_ (List.sublist_append_right _ _)
      refine List.Sublist.trans ?_ (List.sublist_append_left _ _)
      simp [Function.comp_def]
    have h2 := hnd.sublist hsub
    have h3 : 2 ≤ (fs.filter (fun f => f = r.field)).length := by
      rw [← List.countP_eq_length_filter]
      refine le_trans hdup (le_of_eq ?_)
      simp only [List.count]
      congr 1
    match hl : fs.filter (fun f => f = r.field), h3 with
    | a :: b :: l, _ => rw [hl] at h2; simp at h2
  obtain ⟨d, he⟩ := hbad hnot
  rcases method_cases (.initialise n minDocs fs shuffle) hsh (Settled.toPending hs) with
    ⟨d', v, he', -⟩ | ⟨d', e, he', ht, -⟩
  · simp only [ModelOp.method] at he'; rw [he] at he'; cases he'
  · obtain ⟨m, seen', -, h⟩ := callMethod_top (updateChanged none) "initialise_clusters" true
      (initialiseClusters n minDocs fs shuffle) c db hc _ _ he
    simp only [ModelOp.method] at ht
    simp only [endHk, endChanged, ht, Bool.false_eq_true, if_false, endContent, Err.isException, if_true] at h
    simp only [ModelOp.exec, ModelOp.method]
    rw [h]
    exact ⟨rfl, ⟨rfl, rfl, rfl, rfl, rfl, rfl⟩⟩

example : ∃ r ∈ demoDb.features, 1 ≤ r.docsCount ∧ 2 ≤ (["text", "text"]).count r.field := by decide

end Hyperreal.Props
