import Verif.Lemmas.Methods
import Verif.Props.Atomic
import Mathlib.Data.List.Perm.Basic

namespace Hyperreal
open Spec DB

theorem hk_features_ok {s d : DB} (hd : Pending d) (hf : d.features = s.features) :
    (updateChanged none s d).2 = none := by
  obtain ⟨db', h, -⟩ := updateChanged_spec hd hf.symm
  rw [h]

/-- What a successful public call leaves. -/
theorem exec_ok (op : ModelOp) (c : Atomic.Conn DB) (s d : DB) (v : Ret) (hc : Idle c s) (hs : Settled s)
    (he : eval op.method.2.2 s = (d, .ok v)) (hd : Pending d) (hf : d.features = s.features)
    (ht : (touched op.method.2.2 s || op.method.2.1) = true) :
    ∃ db', (op.exec none c).2 = .ok v ∧ Idle (op.exec none c).1 db' ∧ Settled db' ∧ db'.features = s.features ∧
      db'.fc = d.fc ∧
      (db'.docKeys = d.docKeys ∧ db'.posDocMap = d.posDocMap ∧ db'.posIndex = d.posIndex ∧
        db'.fieldSummary = d.fieldSummary) ∧
      (∀ k' ∈ db'.clusters, ∃ k ∈ d.clusters, k.cid = k'.cid ∧ k.pinned = k'.pinned) ∧
      (∀ k ∈ d.clusters, (∃ r ∈ d.fc, r.cid = k.cid) → ∃ k' ∈ db'.clusters, k'.cid = k.cid) ∧
      ∃ n, (op.exec none c).1.seen = db' :: (List.replicate n s ++ c.seen) := by
  have h := Props.atomic_call_partial (updateChanged none) op.method.1 op.method.2.1 op.method.2.2 c s hc
    (updateChanged_settled hs) (by rw [he]; exact hk_features_ok hd hf) (by rw [he]; intro e h; cases h)
  obtain ⟨db', h1, h2, h3, h4, h5, h6, h7⟩ := updateChanged_spec hd (show s.features = d.features from hf.symm)
  have ho : Props.outcome (updateChanged none) op.method.2.1 op.method.2.2 s = db' := by
    simp only [Props.outcome, he, ht, if_true, h1]
  rw [ho, he] at h
  exact ⟨db', h.1, h.2.1, h2, h3.trans hf, h4, h5, h6, h7, h.2.2⟩

/-- A failing public call leaves everything as it was. -/
theorem exec_err (op : ModelOp) (c : Atomic.Conn DB) (s d : DB) (e : Err) (hc : Idle c s) (hs : Settled s)
    (he : eval op.method.2.2 s = (d, .error e)) (hx : e.isException = true)
    (hd : (updateChanged none s d).2 = none) :
    (op.exec none c).2 = .error e ∧ Idle (op.exec none c).1 s ∧
      ∃ n, (op.exec none c).1.seen = s :: (List.replicate n s ++ c.seen) := by
  have h := Props.atomic_call_partial (updateChanged none) op.method.1 op.method.2.1 op.method.2.2 c s hc
    (updateChanged_settled hs) (by rw [he]; exact hd) (by rw [he]; rintro e' ⟨⟩; exact hx)
  have ho : Props.outcome (updateChanged none) op.method.2.1 op.method.2.2 s = s := by
    simp only [Props.outcome, he]
  rw [ho, he] at h
  exact h

/-! ## The bodies of the methods -/

theorem eval_deleteClusters (cids : List Int) {db : DB} (h : Pending db) :
    ∃ d, eval (deleteClusters cids) db = (d, .ok .none) ∧ Pending d ∧ Keeps db d ∧
      d.fc = db.fc.filter (fun r => r.cid ∉ cids) := by
  obtain ⟨d, h1, hP, hK, hfc⟩ := runAll_delete (cids.map (fun c => fun r => decide (r.cid = c))) db h
  rw [List.map_map] at h1
  refine ⟨d, ?_, hP, hK, ?_⟩
  · simp only [deleteClusters, eval_stmts]
    rw [show (cids.map fun c => deleteFC fun r => decide (r.cid = c)) =
      cids.map ((fun p => deleteFC p) ∘ fun c => fun r : FCRow => decide (r.cid = c)) from rfl, h1]
    rfl
  · rw [hfc]; apply List.filter_congr; intro r _
    rw [Bool.eq_iff_iff]
    simp only [List.all_eq_true, List.mem_map, Bool.not_eq_true', forall_exists_index, and_imp,
      forall_apply_eq_imp_iff₂, decide_eq_false_iff_not, decide_eq_true_eq]
    exact ⟨fun h hc => h _ hc rfl, fun h c hc e => h (e ▸ hc)⟩

theorem eval_deleteFeatures (fids : List Nat) {db : DB} (h : Pending db) :
    ∃ d, eval (deleteFeatures fids) db = (d, .ok .none) ∧ Pending d ∧ Keeps db d ∧
      d.fc = db.fc.filter (fun r => r.fid ∉ fids) := by
  obtain ⟨d, h1, hP, hK, hfc⟩ := runAll_delete (fids.map (fun f => fun r => decide (r.fid = f))) db h
  rw [List.map_map] at h1
  refine ⟨d, ?_, hP, hK, ?_⟩
  · simp only [deleteFeatures, eval_stmts]
    rw [show (fids.map fun c => deleteFC fun r => decide (r.fid = c)) =
      fids.map ((fun p => deleteFC p) ∘ fun c => fun r : FCRow => decide (r.fid = c)) from rfl, h1]
    rfl
  · rw [hfc]; apply List.filter_congr; intro r _
    rw [Bool.eq_iff_iff]
    simp only [List.all_eq_true, List.mem_map, Bool.not_eq_true', forall_exists_index, and_imp,
      forall_apply_eq_imp_iff₂, decide_eq_false_iff_not, decide_eq_true_eq]
    exact ⟨fun h hc => h _ hc rfl, fun h c hc e => h (e ▸ hc)⟩

/-- Sequential assignments of clusters, by cluster id. -/
theorem reassign_byCluster (c : Int) (rest : List Int) : ∀ r : FCRow,
    (reassign (rest.map (fun d => ((fun r => decide (r.cid = d)), c))) r).cid = if r.cid ∈ rest then c else r.cid := by
  induction rest with
  | nil => intro r; simp [reassign]
  | cons d rest ih =>
    intro r
    have := ih (if r.cid = d then { r with cid := c } else r)
    simp only [reassign, List.map_cons, List.foldl_cons, decide_eq_true_eq] at this ⊢
    rw [this]
    by_cases hd : r.cid = d
    · simp only [hd, if_true, List.mem_cons, true_or]; split <;> rfl
    · simp only [hd, if_false, List.mem_cons, false_or]

theorem eval_merge (c : Int) (rest : List Int) {db : DB} (h : Pending db) :
    ∃ d T, eval (mergeClusters (c :: rest)) db = (d, .ok (.id c)) ∧ Pending d ∧ Keeps db d ∧ d.fc = db.fc.map T ∧
      (∀ r, (T r).fid = r.fid ∧ (T r).pinned = r.pinned ∧ (T r).cid = if r.cid ∈ rest then c else r.cid) := by
  obtain ⟨d, h1, hP, hK, hfc⟩ := runAll_update (rest.map (fun d => ((fun r => decide (r.cid = d)), c))) db h
  rw [List.map_map] at h1
  refine ⟨d, _, ?_, hP, hK, hfc, ?_⟩
  · simp only [mergeClusters, eval_stmts]
    rw [show (rest.map fun d => updateFC (fun r => decide (r.cid = d)) c) =
      rest.map ((fun x : (FCRow → Bool) × Int => updateFC x.1 x.2) ∘
        fun d => ((fun r => decide (r.cid = d)), c)) from rfl, h1]
    rfl
  · intro r
    exact ⟨(reassign_fid _ r).1, (reassign_fid _ r).2.1, reassign_byCluster c rest r⟩

/-- The cluster a list of `(cluster, feature)` assignments leaves a feature in: the last one counts. -/
def lastAssigned (xs : List (Int × Nat)) (f : Nat) (old : Int) : Int :=
  xs.foldl (fun acc x => if x.2 = f then x.1 else acc) old

theorem reassign_byFeature (xs : List (Int × Nat)) : ∀ r : FCRow,
    (reassign (xs.map (fun x => ((fun r => decide (r.fid = x.2)), x.1))) r).cid = lastAssigned xs r.fid r.cid := by
  induction xs with
  | nil => intro r; simp [reassign, lastAssigned]
  | cons x xs ih =>
    intro r
    have := ih (if r.fid = x.2 then { r with cid := x.1 } else r)
    simp only [reassign, lastAssigned, List.map_cons, List.foldl_cons, decide_eq_true_eq] at this ⊢
    rw [this]
    by_cases hd : r.fid = x.2
    · rw [if_pos hd, if_pos hd.symm]
    · rw [if_neg hd, if_neg (fun e => hd e.symm)]

/-- All assignments of a mapping, in order. -/
def pairsOf (m : List (Int × List Nat)) : List (Int × Nat) := m.flatMap (fun cf => cf.2.map (fun f => (cf.1, f)))

theorem eval_updateClusterFeature (m : List (Int × List Nat)) {db : DB} (h : Pending db) :
    ∃ d T, eval (updateClusterFeature m) db = (d, .ok .none) ∧ Pending d ∧ Keeps db d ∧ d.fc = db.fc.map T ∧
      (∀ r, (T r).fid = r.fid ∧ (T r).pinned = r.pinned ∧ (T r).cid = lastAssigned (pairsOf m) r.fid r.cid) := by
  obtain ⟨d, h1, hP, hK, hfc⟩ := runAll_update ((pairsOf m).map (fun x => ((fun r => decide (r.fid = x.2)), x.1))) db h
  rw [List.map_map] at h1
  refine ⟨d, _, ?_, hP, hK, hfc, ?_⟩
  · simp only [updateClusterFeature, eval_stmts]
    rw [show ((m.flatMap fun cf => cf.2.map fun f => (cf.1, f)).map
        fun x : Int × Nat => updateFC (fun r => decide (r.fid = x.2)) x.1) =
      (pairsOf m).map ((fun x : (FCRow → Bool) × Int => updateFC x.1 x.2) ∘
        fun x => ((fun r => decide (r.fid = x.2)), x.1)) from rfl, h1]
    rfl
  · intro r
    exact ⟨(reassign_fid _ r).1, (reassign_fid _ r).2.1, reassign_byFeature _ r⟩

theorem eval_refineWith (plan : DB → Except Err (List (Int × List Nat))) {db : DB} (h : Pending db) :
    (∀ e, plan db = .error e → eval (refineWith plan) db = (db, .error e)) ∧
    (∀ m, plan db = .ok m →
      touched (refineWith plan) db = true ∧
      ∃ d T, eval (refineWith plan) db = (d, .ok .none) ∧ Pending d ∧ Keeps db d ∧ d.fc = db.fc.map T ∧
        (∀ r, (T r).fid = r.fid ∧ (T r).pinned = r.pinned ∧ (T r).cid = lastAssigned (pairsOf m) r.fid r.cid)) := by
  constructor
  · intro e he
    simp only [refineWith, eval_reading, he, eval]
  · intro m hm
    obtain ⟨d, T, h1, rest⟩ := eval_updateClusterFeature m h
    refine ⟨?_, d, T, ?_, rest⟩
    · simp only [refineWith, touched_reading, hm, touched, h1, Bool.or_true, Bool.true_or]
    · simp only [refineWith, eval_reading, hm, eval, h1]

theorem foldl_max_le (cs : List Int) : ∀ a : Int, a ≤ cs.foldl max a ∧ ∀ x ∈ cs, x ≤ cs.foldl max a := by
  induction cs with
  | nil => intro a; simp
  | cons c cs ih =>
    intro a
    simp only [List.foldl_cons]
    obtain ⟨h1, h2⟩ := ih (max a c)
    refine ⟨le_trans (le_max_left a c) h1, ?_⟩
    intro x hx
    rcases List.mem_cons.1 hx with rfl | hx
    · exact le_trans (le_max_right a x) h1
    · exact h2 x hx

theorem nextClusterId_fresh (db : DB) : ∀ k ∈ db.clusters, k.cid < nextClusterId db := by
  intro k hk
  have hm : k.cid ∈ db.clusters.map (·.cid) := List.mem_map.2 ⟨k, hk, rfl⟩
  simp only [nextClusterId]
  cases hl : db.clusters.map (·.cid) with
  | nil => rw [hl] at hm; simp at hm
  | cons c cs =>
    rw [hl] at hm
    obtain ⟨h1, h2⟩ := foldl_max_le cs c
    simp only []
    rcases List.mem_cons.1 hm with h | h
    · rw [h]; omega
    · have := h2 _ h; omega

theorem lastAssigned_const (c : Int) (fs : List Nat) (f : Nat) : ∀ old,
    lastAssigned (fs.map (fun g => (c, g))) f old = if f ∈ fs then c else old := by
  induction fs with
  | nil => intro old; rfl
  | cons g fs ih =>
    intro old
    have := ih (if g = f then c else old)
    simp only [lastAssigned, List.map_cons, List.foldl_cons] at this ⊢
    rw [this]
    by_cases hg : g = f
    · subst hg; simp
    · have : ¬ f = g := fun e => hg e.symm
      simp [hg, this]

theorem eval_create (fids : List Nat) {db : DB} (h : Pending db) :
    ((∀ f ∈ fids, ∃ fr ∈ db.features, fr.fid = f) →
      ∃ d new T, eval (createCluster fids) db = (d, .ok (.id (nextClusterId db))) ∧ Pending d ∧ Keeps db d ∧
        d.fc = (db.fc ++ new).map T ∧
        (∀ r ∈ new, r.fid ∈ fids ∧ r.cid = nextClusterId db ∧ r.pinned = false) ∧
        (∀ f ∈ fids, ∃ r ∈ db.fc ++ new, r.fid = f) ∧
        (∀ r, (T r).fid = r.fid ∧ (T r).pinned = r.pinned ∧
          (T r).cid = if r.fid ∈ fids then nextClusterId db else r.cid)) ∧
    (∀ f ∈ fids, (∀ fr ∈ db.features, fr.fid ≠ f) →
      ∃ d, eval (createCluster fids) db = (d, .error .integrity)) := by
  obtain ⟨hgood, hbad⟩ := runAll_insertOrIgnore (nextClusterId db) fids db h
  constructor
  · intro hall
    obtain ⟨d1, new, h1, hP1, hK1, hfc1, hnew, hin⟩ := hgood hall
    obtain ⟨d2, h2, hP2, hK2, hfc2⟩ := runAll_update
      ((fids.map (fun f => (nextClusterId db, f))).map (fun x => ((fun r => decide (r.fid = x.2)), x.1))) d1 hP1
    rw [List.map_map, List.map_map] at h2
    refine ⟨d2, new, _, ?_, hP2, hK1.trans hK2, by rw [hfc2, hfc1], hnew, by rw [← hfc1]; exact hin, ?_⟩
    · simp only [createCluster, eval_reading, eval_stmts, h1]
      rw [show (fids.map fun f => updateFC (fun r => decide (r.fid = f)) (nextClusterId db)) = _ from rfl]
      rw [show fids.map (((fun x : (FCRow → Bool) × Int => updateFC x.1 x.2) ∘
        fun x : Int × Nat => ((fun r : FCRow => decide (r.fid = x.2)), x.1)) ∘ fun f => (nextClusterId db, f)) =
        fids.map (fun f => updateFC (fun r => decide (r.fid = f)) (nextClusterId db)) from rfl] at h2
      rw [h2]
      rfl
    · intro r
      refine ⟨(reassign_fid _ r).1, (reassign_fid _ r).2.1, ?_⟩
      rw [reassign_byFeature, lastAssigned_const]
  · intro f hf hno
    obtain ⟨d, hd⟩ := hbad f hf hno
    exact ⟨d, by simp only [createCluster, eval_reading, eval_stmts, hd]⟩

theorem eval_pinFeatures (fids : List Nat) (b : Bool) {db : DB} (h : Pending db) :
    ∃ d, eval (pinFeatures fids b) db = (d, .ok .none) ∧ Pending d ∧
      d = { db with fc := db.fc.map (fun r => if r.fid ∈ fids then { r with pinned := b } else r) } := by
  obtain ⟨d, h1, hP, he⟩ := runAll_pinFC fids b db h
  exact ⟨d, by simp only [pinFeatures, eval_stmts, h1, eval], hP, he⟩

theorem eval_pinClusters (cids : List Int) (b : Bool) {db : DB} (h : Pending db) :
    ∃ d, eval (pinClusters cids b) db = (d, .ok .none) ∧ Pending d ∧
      d = { db with clusters := db.clusters.map (fun r => if r.cid ∈ cids then { r with pinned := b } else r) } := by
  obtain ⟨d, h1, hP, he⟩ := runAll_pinCluster cids b db h
  exact ⟨d, by simp only [pinClusters, eval_stmts, h1, eval], hP, he⟩

/-! ## Dealing out -/

theorem mem_selectFeatures (db : DB) (m : Nat) (fields : List String) (x : Nat × Nat) :
    x ∈ selectFeatures db m fields ↔
      ∃ r ∈ db.features, r.fid = x.1 ∧ r.docsCount = x.2 ∧ m ≤ r.docsCount ∧ r.field ∈ fields := by
  simp only [selectFeatures, (List.perm_insertionSort _ _).mem_iff, List.mem_flatMap]
  constructor
  · rintro ⟨r, hr, hx⟩
    split at hx
    · rename_i hm
      simp only [List.mem_map, List.mem_filter, decide_eq_true_eq] at hx
      obtain ⟨a, ⟨ha, rfl⟩, rfl⟩ := hx
      exact ⟨r, hr, rfl, rfl, hm, ha⟩
    · simp at hx
  · rintro ⟨r, hr, h1, h2, hm, hf⟩
    refine ⟨r, hr, ?_⟩
    rw [if_pos hm]
    simp only [List.mem_map, List.mem_filter, decide_eq_true_eq]
    exact ⟨r.field, ⟨hf, rfl⟩, by rw [h1, h2]⟩

theorem selectFeatures_nodup (db : DB) (m : Nat) (fields : List String) (hf : fields.Nodup)
    (hfid : (db.features.map (·.fid)).Nodup) : ((selectFeatures db m fields).map (·.1)).Nodup := by
  have hp : ((selectFeatures db m fields).map (·.1)).Perm
      ((db.features.flatMap (fun r => if m ≤ r.docsCount then
        (fields.filter (fun f => f = r.field)).map (fun _ => (r.fid, r.docsCount)) else [])).map (·.1)) :=
    (List.perm_insertionSort _ _).map _
  rw [hp.nodup_iff]
  revert hfid
  induction db.features with
  | nil => simp
  | cons r rs ih =>
    intro hn
    simp only [List.map_cons, List.nodup_cons] at hn
    simp only [List.flatMap_cons, List.map_append]
    rw [List.nodup_append]
    refine ⟨?_, ih hn.2, ?_⟩
    · split
      · have : (fields.filter (fun f => f = r.field)).length ≤ 1 := by
          rw [← List.countP_eq_length_filter]
          have := List.nodup_iff_count_le_one.1 hf r.field
          rw [List.count] at this
          have he : (fun f => decide (f = r.field)) = (fun x => x == r.field) := by
            funext f; rw [Bool.eq_iff_iff]; simp
          rw [he]; exact this
        match hl : fields.filter (fun f => f = r.field), this with
        | [], _ => simp
        | [a], _ => simp
        | a :: b :: t, h => simp at h
      · simp
    · intro a ha b hb hab
      have h1 : a = r.fid := by
        split at ha
        · simp only [List.map_map, List.mem_map] at ha
          obtain ⟨_, _, rfl⟩ := ha; rfl
        · simp at ha
      have h2 : b ∈ rs.map (·.fid) := by
        simp only [List.mem_map, List.mem_flatMap] at hb
        obtain ⟨x, ⟨q, hq, hx⟩, rfl⟩ := hb
        split at hx
        · simp only [List.mem_map] at hx
          obtain ⟨_, _, rfl⟩ := hx
          exact List.mem_map.2 ⟨q, hq, rfl⟩
        · simp at hx
      rw [← hab, h1] at h2
      exact hn.1 h2

theorem flatMap_filter_perm {α : Type} (L : List α) (key : α → Nat) (n : Nat) :
    ((List.range n).flatMap (fun i => L.filter (fun x => key x = i))).Perm (L.filter (fun x => key x < n)) := by
  induction n with
  | zero => simp
  | succ n ih =>
    rw [List.range_succ, List.flatMap_append]
    simp only [List.flatMap_cons, List.flatMap_nil, List.append_nil]
    have h1 : L.filter (fun x => decide (key x < n)) =
        (L.filter (fun x => decide (key x < n + 1))).filter (fun x => decide (key x < n)) := by
      rw [List.filter_filter]; apply List.filter_congr; intro x _
      rw [Bool.eq_iff_iff]; simp; omega
    have h2 : L.filter (fun x => decide (key x = n)) =
        (L.filter (fun x => decide (key x < n + 1))).filter (fun x => !decide (key x < n)) := by
      rw [List.filter_filter]; apply List.filter_congr; intro x _
      rw [Bool.eq_iff_iff]; simp; omega
    refine (ih.append_right _).trans ?_
    rw [h1, h2]
    exact List.filter_append_perm _ _

theorem everyNth_eq {α : Type} (l : List α) (i n : Nat) (hi : i < n) :
    everyNth l i n = (l.zipIdx.filter (fun x => x.2 % n = i)).map (·.1) := by
  simp only [everyNth]
  congr 1
  apply List.filter_congr
  intro x _
  rw [Nat.mod_eq_of_lt hi, Bool.eq_iff_iff]
  simp only [decide_eq_true_eq]
  constructor
  · exact fun h => h.1
  · intro h; exact ⟨h, h ▸ Nat.mod_le _ _⟩

theorem zipIdx_map_fst' {α : Type} (l : List α) : ∀ k, (l.zipIdx k).map (·.1) = l := by
  induction l with
  | nil => simp
  | cons a l ih => intro k; simp [List.zipIdx_cons, ih]

/-- The dealt-out hands together are the shuffled deck. -/
theorem deal_perm {α : Type} (l : List α) (n : Nat) (hn : 0 < n) :
    ((List.range n).flatMap (fun i => everyNth l i n)).Perm l := by
  have h : (List.range n).flatMap (fun i => everyNth l i n) =
      ((List.range n).flatMap (fun i => l.zipIdx.filter (fun x => x.2 % n = i))).map (·.1) := by
    rw [List.map_flatMap]
    apply List.flatMap_congr
    intro i hi
    exact everyNth_eq l i n (List.mem_range.1 hi)
  rw [h]
  refine ((flatMap_filter_perm l.zipIdx (fun x => x.2 % n) n).map _).trans ?_
  rw [List.filter_eq_self.2]
  · rw [zipIdx_map_fst']
  · intro x _; simp [Nat.mod_lt _ hn]

theorem countMod (n i : Nat) (hi : i < n) : ∀ (L : Nat),
    (List.range L).countP (fun j => j % n = i) = (L + n - 1 - i) / n := by
  intro L
  induction L with
  | zero =>
    simp only [List.range_zero, List.countP_nil, Nat.zero_add]
    rw [Nat.div_eq_of_lt (by omega)]
  | succ L ih =>
    rw [List.range_succ, List.countP_append, ih]
    have h1 : L + 1 + n - 1 - i = (L + n - 1 - i) + 1 := by omega
    rw [h1, Nat.succ_div]
    congr 1
    simp only [List.countP_cons, List.countP_nil, decide_eq_true_eq, Nat.zero_add]
    have : (n ∣ L + n - 1 - i + 1) ↔ L % n = i := by
      have e : L + n - 1 - i + 1 = L + (n - i) := by omega
      rw [e]
      have hd := Nat.div_add_mod L n
      have hlt := Nat.mod_lt L (by omega : 0 < n)
      constructor
      · intro hdvd
        have h2 : n ∣ (L % n + (n - i)) := by
          have : L + (n - i) = n * (L / n) + (L % n + (n - i)) := by omega
          rw [this] at hdvd
          exact (Nat.dvd_add_right (Nat.dvd_mul_right n _)).1 hdvd
        obtain ⟨q, hq⟩ := h2
        have hq1 : q = 1 := by
          rcases Nat.lt_or_ge q 1 with h | h
          · have : q = 0 := by omega
            subst this; omega
          · rcases Nat.lt_or_ge q 2 with h' | h'
            · omega
            · have : n * 2 ≤ n * q := Nat.mul_le_mul_left n h'
              omega
        subst hq1; omega
      · intro hm
        refine ⟨L / n + 1, ?_⟩
        rw [Nat.mul_add, Nat.mul_one]; omega
    by_cases h : L % n = i
    · simp [h, this.2 h]
    · have : ¬ n ∣ L + n - 1 - i + 1 := fun hd => h (this.1 hd)
      simp [h, this]

theorem everyNth_length {α : Type} (l : List α) (i n : Nat) (hi : i < n) :
    (everyNth l i n).length = (l.length + n - 1 - i) / n := by
  rw [everyNth_eq l i n hi, List.length_map, ← List.countP_eq_length_filter, ← countMod n i hi l.length]
  have : (List.range l.length) = l.zipIdx.map (·.2) := by
    rw [List.range_eq_range']; exact List.zipIdx_map_snd 0 l |>.symm
  rw [this, List.countP_map]
  rfl

/-- The rows inserted by `initialise_clusters`. -/
def dealt (l : List (Nat × Nat)) (n : Nat) : List (Nat × (Nat × Nat)) :=
  (List.range n).flatMap (fun i => (everyNth l i n).map (fun f => (i, f)))

theorem dealt_snd (l : List (Nat × Nat)) (n : Nat) (hn : 0 < n) : ((dealt l n).map (·.2)).Perm l := by
  have : (dealt l n).map (·.2) = (List.range n).flatMap (fun i => everyNth l i n) := by
    simp [dealt, List.map_flatMap, Function.comp_def]
  rw [this]; exact deal_perm l n hn

theorem dealt_fst_lt (l : List (Nat × Nat)) (n : Nat) : ∀ x ∈ dealt l n, x.1 < n := by
  intro x hx
  simp only [dealt, List.mem_flatMap, List.mem_range, List.mem_map] at hx
  obtain ⟨i, hi, f, -, rfl⟩ := hx
  exact hi

theorem dealt_count (l : List (Nat × Nat)) (n i : Nat) (hi : i < n) :
    (dealt l n).countP (fun x => x.1 = i) = (l.length + n - 1 - i) / n := by
  rw [← everyNth_length l i n hi, dealt, List.countP_flatMap]
  have : (List.range n).map ((List.countP (fun x : Nat × (Nat × Nat) => decide (x.1 = i))) ∘
      fun j => (everyNth l j n).map fun f => (j, f)) =
      (List.range n).map (fun j => if j = i then (everyNth l i n).length else 0) := by
    apply List.map_congr_left
    intro j _
    simp only [Function.comp, List.countP_map]
    by_cases h : j = i
    · subst h; simp [Function.comp_def]
    · simp [h, Function.comp_def]
  rw [this]
  have : ∀ m, i < m → ((List.range m).map (fun j => if j = i then (everyNth l i n).length else 0)).sum =
      (everyNth l i n).length := by
    intro m
    induction m with
    | zero => intro h; omega
    | succ m ih =>
      intro h
      rw [List.range_succ, List.map_append, List.sum_append]
      by_cases hm : i < m
      · rw [ih hm]
        have : ¬ m = i := by omega
        simp [this]
      · have : m = i := by omega
        subst this
        have h0 : (List.range m).map (fun j => if j = m then (everyNth l m n).length else 0) =
            (List.range m).map (fun _ => 0) := by
          apply List.map_congr_left
          intro j hj
          have := List.mem_range.1 hj
          rw [if_neg (by omega)]
        rw [h0]; simp
  exact this n hi

theorem eval_initialise (n minDocs : Nat) (fs : List String) (shuffle : List (Nat × Nat) → List (Nat × Nat))
    (hsh : ∀ l, (shuffle l).Perm l) {db : DB} (h : Pending db) :
    let fields := if fs.isEmpty then db.fieldSummary.map (·.field) else fs
    let deck := shuffle (selectFeatures db minDocs fields)
    (((dealt deck n).map (fun x => x.2.1)).Nodup →
      ∃ d, eval (initialiseClusters n minDocs fs shuffle) db = (d, .ok .none) ∧ Pending d ∧
        d.features = db.features ∧
        (d.docKeys = db.docKeys ∧ d.posDocMap = db.posDocMap ∧ d.posIndex = db.posIndex ∧
          d.fieldSummary = db.fieldSummary) ∧
        (∀ k ∈ d.clusters, k.pinned = false) ∧
        d.fc = (dealt deck n).map
          (fun x => { fid := x.2.1, cid := (x.1 : Int), docsCount := x.2.2, pinned := false })) ∧
    (¬ ((dealt deck n).map (fun x => x.2.1)).Nodup →
      ∃ d, eval (initialiseClusters n minDocs fs shuffle) db = (d, .error .integrity)) := by
  intro fields deck
  obtain ⟨hclear, hP0⟩ := runAll_clear h
  have hknown : ∀ x ∈ dealt deck n, ∃ fr ∈ db.features, fr.fid = x.2.1 ∧ fr.docsCount = x.2.2 := by
    intro x hx
    have hn : 0 < n := by have := dealt_fst_lt deck n x hx; omega
    have h1 : x.2 ∈ deck := (dealt_snd deck n hn).mem_iff.1 (List.mem_map.2 ⟨x, hx, rfl⟩)
    have h2 := (hsh _).mem_iff.1 h1
    obtain ⟨r, hr, e1, e2, -⟩ := (mem_selectFeatures _ _ _ _).1 h2
    exact ⟨r, hr, e1, e2⟩
  have hev : ∀ res, runAll ((dealt deck n).map (fun r => insertFC r.2.1 (r.1 : Int) r.2.2))
      { db with fc := [], clusters := [], changed := [] } = res →
      eval (initialiseClusters n minDocs fs shuffle) db =
        match res with
        | (d, none) => (d, .ok .none)
        | (d, some e) => (d, .error e) := by
    intro res hres
    simp only [initialiseClusters, eval_stmts, hclear, eval_reading, eval]
    rw [show (List.map (fun r : Nat × Nat × Nat => insertFC r.2.1 (r.1 : Int) r.2.2)
      ((List.range n).flatMap fun i => (everyNth (shuffle (selectFeatures
        { db with fc := [], clusters := [], changed := [] } minDocs fields)) i n).map fun f => (i, f))) =
      (dealt deck n).map (fun r => insertFC r.2.1 (r.1 : Int) r.2.2) from rfl, hres]
    obtain ⟨d, o⟩ := res
    cases o <;> rfl
  constructor
  · intro hnd
    obtain ⟨d, h1, hP1, hK1, hfc1⟩ := runAll_insert (dealt deck n) _ hP0 hknown hnd (by simp)
    refine ⟨d, by rw [hev _ h1], hP1, hK1.features, hK1.rest, ?_, by rw [hfc1]; simp⟩
    intro k hk
    rcases hK1.pins k hk with ⟨k0, hk0, -⟩ | ⟨-, hp⟩
    · simp at hk0
    · exact hp
  · intro hnd
    obtain ⟨d, h1⟩ := runAll_insert_dup (dealt deck n) _ hP0 hknown (Or.inl hnd)
    exact ⟨d, by rw [hev _ h1]⟩

end Hyperreal
